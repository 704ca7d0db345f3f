import Verif.Proofs.SystemMonitor
import Verif.Props.SystemWork
import Verif.Props.ServerStop

/-! # C75: the progress monitor as an observer of the server -/

namespace Verif

open Spec

variable {N T K S : Type} [DecidableEq N] [DecidableEq T] [DecidableEq K] [DecidableEq S]
  {g : DGraph N T K} {c : SysConf T} {P : Sys N T K S → SysEv N T S → Prop} {es : List (SysEv N T S)}
  {x y : Sys N T K S}

/-- C75.  If messages come from workers, the monitor never raises, whatever states it is told. -/
theorem C75_never_raises (hg : g.Loose) (hnd : c.cfg.served.Nodup) (hP : ∀ x e, P x e → FromWorkers g x e)
    (h : SysRun g c P es x) (name : T → String) (st : Nat → TState) :
    ∃ m, (Monitor.init : Monitor N).run (monEvs g name st x.srv.out) = .ok m := by
  obtain ⟨m, h1, _⟩ := mon_runs (g := g) name st x.srv.out (SysRun.monInv hg hnd hP h).order
  exact ⟨m, h1⟩

/-- C75.  If different tasks have different ids, the summary of every task that was started contains exactly the
failures that were reported about its blocks, in their order, with the ids of the workers; and of tasks that were
not started no failure was reported. -/
theorem C75_failures (hg : g.Loose) (hnd : c.cfg.served.Nodup) (hP : ∀ x e, P x e → FromWorkers g x e)
    (h : SysRun g c P es x) (name : T → String) (hname : Function.Injective name) (st : Nat → TState) {m : Monitor N}
    (hm : (Monitor.init : Monitor N).run (monEvs g name st x.srv.out) = .ok m) (t : T) :
    (.taskStart t ∈ x.srv.out → ∃ s, m.sums (name t) = some s ∧ s.failures = reported g t x.srv.out) ∧
    (.taskStart t ∉ x.srv.out → reported g t x.srv.out = []) := by
  have hi := SysRun.monInv hg hnd hP h
  obtain ⟨ks, hr⟩ := h.srun
  constructor
  · intro ht
    obtain ⟨m', h1, h2⟩ := mon_runs (g := g) name st x.srv.out hi.order
    rw [hm] at h1
    cases h1
    obtain ⟨s, hs⟩ := Option.ne_none_iff_exists'.1 (h2 t ht)
    exact ⟨s, hs, mon_failures name hname st x.srv.out hi.order (fun t => (C34_announced_once hg hr t).1) hm t s hs⟩
  · intro ht
    exact reported_nil_of_not_started x.srv.out t ht hi.order

omit [DecidableEq N] [DecidableEq T] [DecidableEq K] in
/-- The processes of daisy itself are such clients. -/
theorem C75_honest {x : Sys N T K Nat} {e : SysEv N T Nat} (h : Honest g x e) : FromWorkers g x e := by
  cases e with
  | arrive m s =>
    cases m with
    | acquire t => exact Or.inr ⟨s, h⟩
    | blockFailed n w => exact Or.inr ⟨s, h.1⟩
    | _ => trivial
  | _ => trivial

/-- The hypothesis is needed: a client that reports a failure of a block of a task that was not started makes the
monitor, and with it the server, raise. -/
theorem C75_stray : ∃ (es : List (SysEv (Fin 4) (Fin 2) Nat)) (x : Sys (Fin 4) (Fin 2) (Fin 4) Nat),
    Ex.two.OK ∧ SysRun Ex.two ⟨Ex.two_conf, fun _ => 1, 3⟩ Anything es x ∧
    ∀ (name : Fin 2 → String) (st : Nat → TState), name 0 ≠ name 1 →
      (Monitor.init : Monitor (Fin 4)).run (monEvs Ex.two name st x.srv.out) = .error .keyError := by
  have hx : (sysExec Ex.two ⟨Ex.two_conf, fun _ => 1, 3⟩ (fun _ _ => true)
      (([.msg (.blockFailed 2 0) 7, .loop [] []] : List (SimpleEv (Fin 4) (Fin 2) Nat)).map SimpleEv.ev)).map
      (fun r => decide (r.1.srv.out = [.taskStart 0, .callback 0, .recruit [0], .blockFailure 2 0])) = some true := by
    decide +kernel
  obtain ⟨x, ns, h, _, e⟩ := sysExec_run (P := Anything) (fun _ _ _ => trivial) (simple_legal _) _ hx
  have e := of_decide_eq_true e
  refine ⟨_, x, Ex.two_ok, h, ?_⟩
  intro name st hn
  have e0 : Ex.two.task 2 = 1 := by decide
  have : monEvs Ex.two name st x.srv.out = [.start (name 0) (st 0), .failure (name 1) 2 0] := by
    rw [show x.srv.out = _ from e, ← e0]
    rfl
  rw [this]
  simp only [Monitor.run, Monitor.step, Monitor.onBlockFailure, Monitor.init, upd]
  rw [if_neg (Ne.symm hn)]

/-- A worker reports two failures; the monitor lists both. -/
example : ∃ (es : List (SysEv (Fin 1) (Fin 1) Nat)) (x : Sys (Fin 1) (Fin 1) (Fin 1) Nat),
    Ex.one.OK ∧ Ex.oneConf.cfg.served.Nodup ∧ SysRun Ex.one Ex.oneConf (FromWorkers Ex.one) es x ∧
    .taskStart 0 ∈ x.srv.out ∧ reported Ex.one 0 x.srv.out = [(0, 1), (0, 1)] := by
  have hx : (sysExec Ex.one Ex.oneConf (fun x e => match e with
      | .arrive (.acquire t) _ => decide (.taskStart t ∈ x.srv.out)
      | .arrive (.blockFailed n _) s => decide (.send s n ∈ x.srv.out)
      | _ => true) (([.msg (.acquire 0) 7, .loop [] [], .msg (.blockFailed 0 1) 7, .loop [] [], .msg (.acquire 0) 7,
        .loop [] [], .msg (.blockFailed 0 1) 7, .loop [] []] :
        List (SimpleEv (Fin 1) (Fin 1) Nat)).map SimpleEv.ev)).map (fun r => decide (.taskStart 0 ∈ r.1.srv.out ∧
      reported Ex.one 0 r.1.srv.out = [(0, 1), (0, 1)])) = some true := by
    decide +kernel
  obtain ⟨x, ns, h, _, e⟩ := sysExec_run (P := FromWorkers Ex.one) (by
    intro x e h
    cases e with
    | arrive m s =>
      cases m with
      | acquire t => exact Or.inl (of_decide_eq_true h)
      | blockFailed n w => exact Or.inl ⟨s, of_decide_eq_true h⟩
      | _ => trivial
    | _ => trivial) (simple_legal _) _ hx
  obtain ⟨e1, e2⟩ := of_decide_eq_true e
  exact ⟨_, x, Ex.one_ok, by decide, h, e1, e2⟩

end Verif
