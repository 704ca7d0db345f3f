import Verif.Proofs.CallbackSame
import Verif.Props.CallbackRaises

/-! # C125: callbacks hide no other exception -/

set_option linter.unusedSectionVars false

namespace Verif

open Spec

variable {N T K S : Type} [DecidableEq N] [DecidableEq T] [DecidableEq K] [DecidableEq S]
  {g : DGraph N T K} {cfg : SConf T} {fails : T → Option PyErr} {σ : Server N T K S} {ks : List (Server.Tick N T S)}

/-- C125: if no callback raises, the run with callbacks is the run without. -/
theorem C125_quiet (h : SRun g cfg ks σ) : Server.runCb (K := K) g cfg (fun _ => none) ks = (σ, none) := by
  obtain ⟨h1, h2⟩ := C125_cut (fails := fun _ => none) h
  have h3 : (Server.runCb (K := K) g cfg (fun _ => none) ks).2 = none := by
    rcases h1 with ⟨_, h, _⟩ | ⟨_, _, _, _, _, _, h, _⟩
    · exact h
    · exact absurd rfl h
  exact Prod.ext (h2 h3) h3

/-- C125: an exception that does not come from a callback, such as the one a client reports, is never hidden: the run
ends with it, or with the exception of a callback that came before. -/
theorem C125_other (h : SRun g cfg ks σ) (k : Server.Tick N T S) {e : PyErr} (he : σ.iteration g cfg k = .error e) :
    (Server.runCb (K := K) g cfg fails (ks ++ [k])).2 = some e ∨
      ∃ t, fails t ≠ none ∧ (Server.runCb (K := K) g cfg fails (ks ++ [k])).2 = fails t := by
  obtain ⟨h1, h2⟩ := C125_cut (fails := fails) h
  have hb : Either fails (Except.ok σ : Except PyErr (Server N T K S)) (Server.runCb g cfg fails ks) := by
    rcases h1 with ⟨_, h3, _⟩ | ⟨_, t, _, _, _, h3, h4, _⟩
    · exact Or.inl (Prod.ext (h2 h3) h3)
    · exact Or.inr ⟨t, h4, h3⟩
  have hl : ∀ σ1 : Server N T K S, Either fails (σ1.iteration g cfg k) (Server.loopCb g cfg fails [k] σ1) := by
    intro σ1
    have hm := iteration_same (g := g) (cfg := cfg) (fails := fails) σ1 k
    have e1 : Server.loopCb g cfg fails [k] σ1 = Server.iterationCb g cfg fails σ1 k := by
      show Server.andThen (Server.iterationCb g cfg fails σ1 k) _ = _
      rcases Server.iterationCb g cfg fails σ1 k with ⟨σ2, _ | e⟩ <;> rfl
    rw [e1]
    exact hm
  have hr := either_bind (f := fun σ1 => σ1.iteration g cfg k) hb hl
  rw [← runCb_append] at hr
  dsimp only at hr
  rw [he] at hr
  exact hr

/-- C125: so without exceptions of callbacks the run ends with the exception it ends with without callbacks. -/
theorem C125_same (h : SRun g cfg ks σ) (k : Server.Tick N T S) {e : PyErr} (he : σ.iteration g cfg k = .error e) :
    (Server.runCb (K := K) g cfg (fun _ => none) (ks ++ [k])).2 = some e := by
  rcases C125_other (fails := fun _ => none) h k he with h | ⟨_, h, _⟩
  · exact h
  · exact absurd rfl h

/-- In `vee`, a client reports an exception after two blocks were sent. -/
example : ∃ σ : Server (Fin 4) (Fin 2) (Fin 4) Nat, SRun Ex.vee Ex.veeConf Ex.veeServe σ ∧
    σ.iteration Ex.vee Ex.veeConf (tick pickMin (.msg .clientException 7)) = .error .userException :=
  let ⟨σ, h, _⟩ := Ex.vee_serve
  ⟨σ, h, rfl⟩

end Verif
