import Verif.Model.Interrupts
import Verif.Props.Interrupt
import Verif.Props.ServerHold

/-! # C128: keyboard interrupts at any moment, any number of them -/

set_option linter.unusedSectionVars false

namespace Verif

open Spec Threads

variable {N T K S : Type} [DecidableEq N] [DecidableEq T] [DecidableEq K] [DecidableEq S]
  {g : DGraph N T K} {cfg : SConf T}

namespace Spec

/-- The server has been told to stop, has ended or has never begun. -/
def ToldToStop (y : ServerAt N T K S) : Prop := ∀ σ, y = .running σ → σ.stop = true

/-- The state the server is in or has ended in. -/
def ServerIs (y : ServerAt N T K S) (σ : Server N T K S) : Prop := y = .running σ ∨ ∃ r, y = .ended σ r

/-- The main thread waits for the server, or `run_blockwise` is over. -/
def Waits (m : MainAt) : Prop := m ≠ .before ∧ m ≠ .submitted ∧ m ≠ .handler

instance (m : MainAt) : Decidable (Waits m) := by unfold Waits; infer_instance

/-- Interrupts come only while the main thread waits. -/
def OnlyWhileWaiting (g : DGraph N T K) (cfg : SConf T) : Threads N T K S → List (TEv N T S) → Prop
  | _, [] => True
  | x, e :: es => (e = .interrupt → Waits x.main) ∧ OnlyWhileWaiting g cfg (step g cfg x e) es

/-- The interrupts. -/
def interrupts (es : List (TEv N T S)) : Nat := (es.filter (fun e => e matches .interrupt)).length

/-- The iterations of the server are those of correct clients. -/
def GoodEvs (g : DGraph N T K) (cfg : SConf T) (es : List (TEv N T S)) : Prop := ∀ k, .server k ∈ es → GoodTick g cfg k

end Spec

/-- C128: when `KeyboardInterrupt` leaves `run_blockwise`, the server has been told to stop, whenever the user interrupts. -/
def C128_statement : Prop :=
  ∀ (N T K S : Type) [DecidableEq N] [DecidableEq T] [DecidableEq K] [DecidableEq S] (g : DGraph N T K) (cfg : SConf T)
    (es : List (TEv N T S)), g.OK → GoodEvs g cfg es →
    (es.foldl (step g cfg) (start : Threads N T K S)).main = .raised none →
    ToldToStop (es.foldl (step g cfg) (start : Threads N T K S)).srv

/-- The state of the server is one of an execution without interrupts, but for the stop event. -/
def OfRun (g : DGraph N T K) (cfg : SConf T) (y : ServerAt N T K S) : Prop :=
  ∀ σ, ServerIs y σ → ∃ ks τ, SRun g cfg ks τ ∧ (σ = τ ∨ σ = { τ with stop := true })

theorem get_srv (x : Threads N T K S) : x.get.srv = x.srv := by
  unfold Threads.get
  split <;> rfl

theorem step_ofRun {x : Threads N T K S} (hx : OfRun g cfg x.srv) (e : TEv N T S)
    (he : ∀ k, e = .server k → GoodTick g cfg k) : OfRun g cfg (step g cfg x e).srv := by
  cases e with
  | interrupt =>
    have : (x.interrupt).srv = x.srv := by unfold Threads.interrupt; split <;> rfl
    show OfRun g cfg (x.interrupt).srv
    rw [this]; exact hx
  | main =>
    show OfRun g cfg (x.mainStep g).srv
    unfold Threads.mainStep
    split
    · rintro σ (h | ⟨r, h⟩)
      · cases h; exact ⟨[], _, SRun.init, Or.inl rfl⟩
      · cases h
    · exact hx
    · rw [get_srv]; exact hx
    · rcases hs : x.srv with _ | σ | ⟨σ, r⟩
      · rintro σ (h | ⟨r, h⟩) <;> cases h
      · rintro σ' (h | ⟨r, h⟩)
        · cases h
          obtain ⟨ks, τ, h1, h2⟩ := hx σ (Or.inl hs)
          refine ⟨ks, τ, h1, Or.inr ?_⟩
          rcases h2 with rfl | rfl <;> rfl
        · cases h
      · rintro σ' (h | ⟨r', h⟩)
        · cases h
        · cases h; exact hx _ (Or.inr ⟨r, hs⟩)
    · rw [get_srv]; exact hx
    · exact hx
    · exact hx
  | server k =>
    show OfRun g cfg (x.serverStep g cfg k).srv
    unfold Threads.serverStep
    split
    · rename_i σ hs
      obtain ⟨ks, τ, h1, h2⟩ := hx σ (Or.inl hs)
      split
      · rintro σ' (h | ⟨r', h⟩)
        · cases h
        · cases h; exact ⟨ks, τ, h1, h2⟩
      · rename_i hst
        split
        · rintro σ' (h | ⟨r', h⟩)
          · cases h
          · cases h; exact ⟨ks, τ, h1, h2⟩
        · rename_i σ1 hit
          rintro σ' (h | ⟨r', h⟩)
          · cases h
            rcases h2 with rfl | rfl
            · exact ⟨ks ++ [k], σ1, SRun.step k h1 (by simpa using hst) (he k rfl) hit, Or.inl rfl⟩
            · exact absurd rfl hst
          · cases h
    · exact hx

/-- C128: whenever and however often the user interrupts, the server is in a state that it also reaches without. -/
theorem C128_valid {es : List (TEv N T S)} (he : GoodEvs g cfg es) {σ : Server N T K S}
    (hσ : ServerIs (es.foldl (step g cfg) start).srv σ) :
    ∃ ks τ, SRun g cfg ks τ ∧ (σ = τ ∨ σ = { τ with stop := true }) := by
  have key : ∀ (es : List (TEv N T S)) (x : Threads N T K S), GoodEvs g cfg es → OfRun g cfg x.srv →
      OfRun g cfg (es.foldl (step g cfg) x).srv := by
    intro es
    induction es with
    | nil => intro x _ hx; exact hx
    | cons e es ih =>
      intro x he hx
      exact ih _ (fun k hk => he k (List.mem_cons_of_mem _ hk))
        (step_ofRun hx e (fun k hk => he k (by rw [hk]; exact List.mem_cons_self)))
  exact key es start he (by rintro σ (h | ⟨r, h⟩) <;> cases h) σ hσ

/-- C128: a server that has been told to stop ends before its next iteration, whatever that would have been. -/
theorem C128_prompt {x : Threads N T K S} {σ : Server N T K S} (hx : x.srv = .running σ) (hs : ToldToStop x.srv)
    (k : Server.Tick N T S) : (step g cfg x (.server k)).srv = .ended σ (.ok (Server.result g σ)) := by
  show (x.serverStep g cfg k).srv = _
  unfold Threads.serverStep
  rw [hx]
  simp only [hs σ hx, if_true]

/-- What holds between the events: `n` interrupts have come. -/
structure TInv (n : Nat) (x : Threads N T K S) : Prop where
  none : x.main = .before ∨ x.main = .submitted ∨ x.main = .waiting → n = 0
  idle : x.main = .before → x.srv = .idle
  again : x.main = .waitingAgain → ToldToStop x.srv
  handler : x.main = .handler → 1 ≤ n
  again1 : x.main = .waitingAgain → 1 ≤ n
  twice : x.main = .raised Option.none → 2 ≤ n ∧ ToldToStop x.srv

theorem told_step {x : Threads N T K S} (h : ToldToStop x.srv) (k : Server.Tick N T S) :
    ToldToStop (x.serverStep g cfg k).srv := by
  unfold Threads.serverStep
  split
  · rename_i σ hs
    rw [if_pos (h σ hs)]
    intro σ' h'
    cases h'
  · exact h

theorem server_main (x : Threads N T K S) (k : Server.Tick N T S) : (x.serverStep g cfg k).main = x.main := by
  unfold Threads.serverStep
  split
  · split
    · rfl
    · split <;> rfl
  · rfl

theorem get_main (x : Threads N T K S) : x.get.main = x.main ∨ (∃ b, x.get.main = .returned b) ∨
    ∃ e, x.get.main = .raised (some e) := by
  unfold Threads.get
  split
  · exact Or.inr (Or.inl ⟨_, rfl⟩)
  · exact Or.inr (Or.inr ⟨_, rfl⟩)
  · exact Or.inl rfl

theorem TInv.get {n : Nat} {x : Threads N T K S} (h : TInv n x) : TInv n x.get := by
  have hs := get_srv x
  rcases get_main x with hm | ⟨b, hm⟩ | ⟨e, hm⟩
  · exact { none := by rw [hm]; exact h.none, idle := by rw [hm, hs]; exact h.idle,
            again := by rw [hm, hs]; exact h.again, handler := by rw [hm]; exact h.handler,
            again1 := by rw [hm]; exact h.again1, twice := by rw [hm, hs]; exact h.twice }
  · exact { none := by rw [hm]; simp, idle := by rw [hm]; simp, again := by rw [hm]; simp,
            handler := by rw [hm]; simp, again1 := by rw [hm]; simp, twice := by rw [hm]; simp }
  · exact { none := by rw [hm]; simp, idle := by rw [hm]; simp, again := by rw [hm]; simp,
            handler := by rw [hm]; simp, again1 := by rw [hm]; simp, twice := by rw [hm]; simp }

theorem TInv.step {n : Nat} {x : Threads N T K S} (h : TInv n x) (e : TEv N T S)
    (he : e = .interrupt → Waits x.main) : TInv (n + interrupts [e]) (step g cfg x e) := by
  cases e with
  | interrupt =>
    have hw := he rfl
    show TInv (n + 1) x.interrupt
    unfold Threads.interrupt
    split
    · rename_i hm
      exact { none := by simp, idle := by simp, again := by simp, handler := by simp, again1 := by simp, twice := by simp }
    · rename_i b hm
      exact { none := by rw [hm]; simp, idle := by rw [hm]; simp, again := by rw [hm]; simp,
              handler := by rw [hm]; simp, again1 := by rw [hm]; simp, twice := by rw [hm]; simp }
    · rename_i e hm
      exact { none := by rw [hm]; simp, idle := by rw [hm]; simp, again := by rw [hm]; simp,
              handler := by rw [hm]; simp, again1 := by rw [hm]; simp,
              twice := fun hr => ⟨by have := (h.twice hr).1; omega, (h.twice hr).2⟩ }
    · rename_i h1 h2 h3
      have hm : x.main = .waitingAgain := by
        rcases hx : x.main with _ | _ | _ | _ | _ | b | e
        · exact absurd hx hw.1
        · exact absurd hx hw.2.1
        · exact absurd hx h1
        · exact absurd hx hw.2.2
        · rfl
        · exact absurd hx (h2 b)
        · exact absurd hx (h3 e)
      exact { none := by simp, idle := by simp, again := by simp, handler := by simp, again1 := by simp,
              twice := fun _ => ⟨by have := h.again1 hm; omega, h.again hm⟩ }
  | main =>
    show TInv n (x.mainStep g)
    unfold Threads.mainStep
    split
    · rename_i hm
      exact { none := fun _ => h.none (Or.inl hm), idle := by simp, again := by simp, handler := by simp,
              again1 := by simp, twice := by simp }
    · rename_i hm
      exact { none := fun _ => h.none (Or.inr (Or.inl hm)), idle := by simp, again := by simp, handler := by simp,
              again1 := by simp, twice := by simp }
    · exact h.get
    · rename_i hm
      refine { none := by simp, idle := by simp, again := ?_, handler := by simp,
               again1 := fun _ => h.handler hm, twice := by simp }
      intro _ σ hσ
      rcases hs : x.srv with _ | τ | ⟨τ, r⟩
      · rw [hs] at hσ; cases hσ
      · rw [hs] at hσ; cases hσ; rfl
      · rw [hs] at hσ; cases hσ
    · exact h.get
    · exact h
    · exact h
  | server k =>
    show TInv n (x.serverStep g cfg k)
    have hm := server_main (g := g) (cfg := cfg) x k
    exact { none := by rw [hm]; exact h.none
            idle := by
              intro h0
              rw [hm] at h0
              have := h.idle h0
              unfold Threads.serverStep
              simp only [this]
            again := by rw [hm]; exact fun h0 => told_step (h.again h0) k
            handler := by rw [hm]; exact h.handler
            again1 := by rw [hm]; exact h.again1
            twice := by rw [hm]; exact fun h0 => ⟨(h.twice h0).1, told_step (h.twice h0).2 k⟩ }

theorem TInv.run : ∀ (es : List (TEv N T S)) (n : Nat) (x : Threads N T K S), TInv n x → OnlyWhileWaiting g cfg x es →
    TInv (n + interrupts es) (es.foldl (Threads.step g cfg) x)
  | [], n, x, h, _ => h
  | e :: es, n, x, h, hw => by
    have := TInv.run es _ _ (h.step e hw.1) hw.2
    have hn : n + interrupts [e] + interrupts es = n + interrupts (e :: es) := by
      unfold interrupts
      rw [Nat.add_assoc, ← List.length_append, ← List.filter_append]
      rfl
    rw [hn] at this
    exact this

theorem TInv.start : TInv 0 (Threads.start : Threads N T K S) :=
  { none := fun _ => rfl, idle := fun _ => rfl, again := by simp [Threads.start], handler := by simp [Threads.start],
    again1 := by simp [Threads.start], twice := by simp [Threads.start] }

/-- C128, partial.  The full claim is without the hypothesis that interrupts come while the main thread waits, and is
false (`C128_false`): under it, when `KeyboardInterrupt` leaves `run_blockwise` the server has been told to stop, and
the user has interrupted twice. -/
theorem C128_told_partial {es : List (TEv N T S)} (hw : OnlyWhileWaiting g cfg (start : Threads N T K S) es)
    (hr : (es.foldl (step g cfg) (start : Threads N T K S)).main = .raised none) :
    ToldToStop (es.foldl (step g cfg) (start : Threads N T K S)).srv ∧ 2 ≤ interrupts es := by
  have h := (TInv.run es 0 _ TInv.start hw).twice hr
  exact ⟨h.2, by simpa using h.1⟩

/-- C128: after one interrupt `run_blockwise` still returns what the server returns. -/
theorem C128_one {es : List (TEv N T S)} (hw : OnlyWhileWaiting g cfg (start : Threads N T K S) es)
    (h1 : interrupts es ≤ 1) : (es.foldl (step g cfg) (start : Threads N T K S)).main ≠ .raised none := fun hr => by
  have := (C128_told_partial hw hr).2
  omega

/-- C128: whenever the user interrupts, `run_blockwise` returns only what the server has returned, and raises, besides
`KeyboardInterrupt`, only what it has raised. -/
theorem C128_result (es : List (TEv N T S)) :
    (∀ b, (es.foldl (step g cfg) (start : Threads N T K S)).main = .returned b →
      ∃ σ, (es.foldl (step g cfg) (start : Threads N T K S)).srv = .ended σ (.ok b)) ∧
    ∀ e, (es.foldl (step g cfg) (start : Threads N T K S)).main = .raised (some e) →
      ∃ σ, (es.foldl (step g cfg) (start : Threads N T K S)).srv = .ended σ (.error e) := by
  let P : Threads N T K S → Prop := fun x => (∀ b, x.main = .returned b → ∃ σ, x.srv = .ended σ (.ok b)) ∧
    ∀ e, x.main = .raised (some e) → ∃ σ, x.srv = .ended σ (.error e)
  have hget : ∀ x, P x → P x.get := by
    intro x hx
    unfold Threads.get
    split
    · rename_i σ b hs
      exact ⟨fun b' h => by cases h; exact ⟨σ, hs⟩, fun e h => by cases h⟩
    · rename_i σ e hs
      exact ⟨fun b' h => (by cases h), fun e h => by cases h; exact ⟨σ, hs⟩⟩
    · exact hx
  have hstep : ∀ x e, P x → P (step g cfg x e) := by
    intro x e hx
    cases e with
    | interrupt =>
      show P x.interrupt
      unfold Threads.interrupt
      split
      · exact ⟨fun b h => (by cases h), fun e h => (by cases h)⟩
      · exact hx
      · exact hx
      · exact ⟨fun b h => (by cases h), fun e h => (by cases h)⟩
    | main =>
      show P (x.mainStep g)
      unfold Threads.mainStep
      split
      · exact ⟨fun b h => (by cases h), fun e h => (by cases h)⟩
      · exact ⟨fun b h => (by cases h), fun e h => (by cases h)⟩
      · exact hget x hx
      · exact ⟨fun b h => (by cases h), fun e h => (by cases h)⟩
      · exact hget x hx
      · exact hx
      · exact hx
    | server k =>
      have hm := server_main (g := g) (cfg := cfg) x k
      have hs : ∀ σ r, x.srv = .ended σ r → (x.serverStep g cfg k).srv = .ended σ r := by
        intro σ r h
        unfold Threads.serverStep
        simp only [h]
      refine ⟨fun b h => ?_, fun e h => ?_⟩
      · obtain ⟨σ, h1⟩ := hx.1 b (hm ▸ h)
        exact ⟨σ, hs _ _ h1⟩
      · obtain ⟨σ, h1⟩ := hx.2 e (hm ▸ h)
        exact ⟨σ, hs _ _ h1⟩
  have key : ∀ (es : List (TEv N T S)) x, P x → P (es.foldl (step g cfg) x) := by
    intro es
    induction es with
    | nil => intro x hx; exact hx
    | cons e es ih => intro x hx; exact ih _ (hstep x e hx)
  exact key es start ⟨fun b h => (by cases h), fun e h => (by cases h)⟩

/-- C128: the thread of the server ends only after it has been told to stop, with the result for the state it is in
then, or with an exception of an iteration. -/
theorem C128_end (es : List (TEv N T S)) {σ : Server N T K S} {r : Except PyErr Bool}
    (h : (es.foldl (step g cfg) (start : Threads N T K S)).srv = .ended σ r) :
    (σ.stop = true ∧ r = .ok (Server.result g σ)) ∨
      (σ.stop = false ∧ ∃ k e, TEv.server k ∈ es ∧ σ.iteration g cfg k = .error e ∧ r = .error e) := by
  let Q : List (TEv N T S) → ServerAt N T K S → Prop := fun es y => ∀ σ r, y = .ended σ r →
    (σ.stop = true ∧ r = .ok (Server.result g σ)) ∨
      (σ.stop = false ∧ ∃ k e, TEv.server k ∈ es ∧ σ.iteration g cfg k = .error e ∧ r = .error e)
  have hmono : ∀ es e y, Q es y → Q (es ++ [e]) y := by
    intro es e y hy σ r h
    rcases hy σ r h with h | ⟨h1, k, e', h2, h3⟩
    · exact Or.inl h
    · exact Or.inr ⟨h1, k, e', List.mem_append_left _ h2, h3⟩
  have key : ∀ es : List (TEv N T S), Q es (es.foldl (step g cfg) (start : Threads N T K S)).srv := by
    intro es
    induction es using List.reverseRecOn with
    | nil => intro σ r h; cases h
    | append_singleton es e ih =>
      rw [List.foldl_append]
      generalize es.foldl (step g cfg) (start : Threads N T K S) = x at ih
      show Q (es ++ [e]) (step g cfg x e).srv
      cases e with
      | interrupt =>
        have : (x.interrupt).srv = x.srv := by unfold Threads.interrupt; split <;> rfl
        show Q _ (x.interrupt).srv
        rw [this]
        exact hmono _ _ _ ih
      | main =>
        show Q _ (x.mainStep g).srv
        unfold Threads.mainStep
        split
        · intro σ r h; cases h
        · exact hmono _ _ _ ih
        · rw [get_srv]; exact hmono _ _ _ ih
        · rcases hs : x.srv with _ | τ | ⟨τ, r'⟩
          · intro σ r h; cases h
          · intro σ r h; cases h
          · rw [hs] at ih; exact hmono _ _ _ ih
        · rw [get_srv]; exact hmono _ _ _ ih
        · exact hmono _ _ _ ih
        · exact hmono _ _ _ ih
      | server k =>
        show Q _ (x.serverStep g cfg k).srv
        unfold Threads.serverStep
        split
        · split
          · rename_i hst
            intro σ r h
            cases h
            exact Or.inl ⟨hst, rfl⟩
          · rename_i hst
            split
            · rename_i e he
              intro σ r h
              cases h
              exact Or.inr ⟨by simpa using hst, k, e, by simp, he, rfl⟩
            · intro σ r h; cases h
        · exact hmono _ _ _ ih
  exact key es σ r h

/-- C128, partial (as C90): if no block has failed for good, `run_blockwise` returns `True` iff all blocks have
completed, whenever and however often the user has interrupted. -/
theorem C128_true_partial (hg : g.Loose) {es : List (TEv N T S)} (he : GoodEvs g cfg es) {b : Bool}
    (hb : (es.foldl (step g cfg) (start : Threads N T K S)).main = .returned b) :
    ∃ σ : Server N T K S, (es.foldl (step g cfg) start).srv = .ended σ (.ok b) ∧
      ((∀ n ∈ g.nodes, ¬ Dead g (evs σ.out) n) → (b = true ↔ ∀ n ∈ g.nodes, Done (evs σ.out) n)) := by
  obtain ⟨σ, hσ⟩ := (C128_result es).1 b hb
  refine ⟨σ, hσ, fun hf => ?_⟩
  rcases C128_end es hσ with ⟨_, h⟩ | ⟨_, _, _, _, _, h⟩
  · obtain ⟨ks, τ, h1, h2⟩ := C128_valid he (Or.inr ⟨_, hσ⟩)
    cases h
    rcases h2 with rfl | rfl
    · exact C41_no_failures_partial hg h1 hf
    · exact C41_no_failures_partial (σ := τ) hg h1 hf
  · cases h

/-- C128: with correct clients nothing but `KeyboardInterrupt` leaves `run_blockwise`, and nothing at all if the user
interrupts at most once, while the main thread waits. -/
theorem C128_never_raises (hg : g.Loose) {es : List (TEv N T S)} (he : GoodEvs g cfg es) :
    (∀ e, (es.foldl (step g cfg) (start : Threads N T K S)).main ≠ .raised (some e)) ∧
    (OnlyWhileWaiting g cfg (start : Threads N T K S) es → interrupts es ≤ 1 →
      ∀ e, (es.foldl (step g cfg) (start : Threads N T K S)).main ≠ .raised e) := by
  have h1 : ∀ e, (es.foldl (step g cfg) (start : Threads N T K S)).main ≠ .raised (some e) := by
    intro e hm
    obtain ⟨σ, hσ⟩ := (C128_result es).2 e hm
    rcases C128_end es hσ with ⟨_, h⟩ | ⟨hs, k, e', hk, hit, _⟩
    · cases h
    · obtain ⟨ks, τ, h1, h2⟩ := C128_valid he (Or.inr ⟨_, hσ⟩)
      rcases h2 with rfl | rfl
      · obtain ⟨σ', h3⟩ := C29_never_raises_partial hg h1 (he k hk)
        rw [h3] at hit
        cases hit
      · cases hs
  refine ⟨h1, fun hw hn e => ?_⟩
  cases e with
  | none => exact C128_one hw hn
  | some e => exact h1 e

/-- C128: after the interrupt has been handled, one step of the server and one of the main thread end the call. -/
theorem C128_returns {x : Threads N T K S} {σ : Server N T K S} (hm : x.main = .waiting) (hx : x.srv = .running σ)
    (k : Server.Tick N T S) :
    [TEv.interrupt, .main, .server k, .main].foldl (step g cfg) x =
      ⟨.returned (Server.result g σ), .ended { σ with stop := true } (.ok (Server.result g σ))⟩ := by
  obtain ⟨m, y⟩ := x
  cases hm
  cases hx
  rfl

/-- A server that has not been told to stop goes through any execution. -/
theorem srv_run {ks : List (Server.Tick N T S)} {τ : Server N T K S} (h : SRun g cfg ks τ) (m : MainAt) :
    (ks.map TEv.server).foldl (step g cfg) ⟨m, .running (Server.start g false)⟩ = ⟨m, .running τ⟩ := by
  induction h with
  | init => rfl
  | step k _ hs _ he ih =>
    rw [List.map_append, List.foldl_append, ih]
    simp only [List.map_cons, List.map_nil, List.foldl_cons, List.foldl_nil, Threads.step, Threads.serverStep, hs, he]
    rfl

/-- C128: if the interrupt comes right before the `try` statement, `run_blockwise` raises and the server goes on as if
nothing had happened: all its executions are possible, and blocks are still given out. -/
theorem C128_goes_on {ks : List (Server.Tick N T S)} {τ : Server N T K S} (h : SRun g cfg ks τ) :
    ([TEv.main, .interrupt] ++ ks.map TEv.server).foldl (step g cfg) (start : Threads N T K S) =
      ⟨.raised none, .running τ⟩ := by
  rw [List.foldl_append]
  exact srv_run h _

/-- C128: the same if a second interrupt comes before the first one has been handled. -/
theorem C128_goes_on_twice {ks : List (Server.Tick N T S)} {τ : Server N T K S} (h : SRun g cfg ks τ) :
    ([TEv.main, .main, .interrupt, .interrupt] ++ ks.map TEv.server).foldl (step g cfg) (start : Threads N T K S) =
      ⟨.raised none, .running τ⟩ := by
  rw [List.foldl_append]
  exact srv_run h _

/-- In `vee` the server gives out blocks after `run_blockwise` has raised `KeyboardInterrupt`. -/
theorem C128_false : ¬ C128_statement := by
  intro hC
  obtain ⟨σ, h, _⟩ := Ex.vee_serve
  have hs : (Server.start Ex.vee false : Server (Fin 4) (Fin 2) (Fin 4) Nat).stop = true :=
    hC _ _ _ Nat Ex.vee Ex.veeConf [TEv.main, .interrupt] Ex.vee_ok (fun k hk => by simp at hk) rfl _ rfl
  exact absurd hs (by decide +kernel)

/-- One interrupt while the main thread waits, after a block has been given out. -/
def Ex.oneInterrupt : List (TEv (Fin 4) (Fin 2) Nat) :=
  [.main, .main, .server (tick pickMin (acq 0 7)), .interrupt, .main, .server (tick pickMin (acq 0 8)), .main]

/-- The server stops before its next iteration, and `run_blockwise` returns `False`. -/
example : OnlyWhileWaiting Ex.vee Ex.veeConf (start : Threads (Fin 4) (Fin 2) (Fin 4) Nat) Ex.oneInterrupt ∧
    interrupts Ex.oneInterrupt = 1 ∧
    (Ex.oneInterrupt.foldl (step Ex.vee Ex.veeConf) (start : Threads (Fin 4) (Fin 2) (Fin 4) Nat)).main =
      .returned false :=
  ⟨⟨nofun, nofun, nofun, fun _ => by decide +kernel, nofun, nofun, nofun, trivial⟩, rfl, by decide +kernel⟩

/-- Two interrupts: `KeyboardInterrupt` leaves `run_blockwise`, and the server ends all the same. -/
example : OnlyWhileWaiting Ex.vee Ex.veeConf (start : Threads (Fin 4) (Fin 2) (Fin 4) Nat)
      [.main, .main, .interrupt, .main, .interrupt] ∧
    ([TEv.main, .main, .interrupt, .main, .interrupt].foldl (step Ex.vee Ex.veeConf)
      (start : Threads (Fin 4) (Fin 2) (Fin 4) Nat)).main = .raised none :=
  ⟨⟨nofun, nofun, fun _ => by decide +kernel, nofun, fun _ => by decide +kernel, trivial⟩, by decide +kernel⟩

end Verif
