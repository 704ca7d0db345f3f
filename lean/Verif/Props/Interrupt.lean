import Verif.Props.Convenience

/-! # C90: interrupting `run_blockwise` -/

set_option linter.unusedSectionVars false

namespace Verif

open Spec

variable {N T K S : Type} [DecidableEq N] [DecidableEq T] [DecidableEq K] [DecidableEq S]
  {g : DGraph N T K} {cfg : SConf T}

/-- The server ends in a state that it also reaches without the interrupt, in the iterations up to the interrupt; only
the stop event differs. -/
theorem interrupt_reach (ks : List (Server.Tick N T S × Bool)) : ∀ (ks₀ : List (Server.Tick N T S))
    (σ σ' : Server N T K S), SRun g cfg ks₀ σ → (∀ k ∈ ks, GoodTick g cfg k.1) →
    Server.interruptLoop g cfg ks σ = .ok σ' →
    ∃ ks₁ τ, ks₁ <+: ks.map Prod.fst ∧ SRun g cfg (ks₀ ++ ks₁) τ ∧
      (σ' = τ ∨ σ' = { τ with stop := true }) := by
  induction ks with
  | nil =>
    intro ks₀ σ σ' h _ he
    cases he
    exact ⟨[], σ, List.nil_prefix, by simpa using h, Or.inl rfl⟩
  | cons k ks ih =>
    intro ks₀ σ σ' h hk he
    obtain ⟨k, ki⟩ := k
    unfold Server.interruptLoop at he
    cases hs : σ.stop with
    | true =>
      rw [hs] at he
      cases he
      exact ⟨[], σ, List.nil_prefix, by simpa using h, Or.inl rfl⟩
    | false =>
      rw [hs] at he
      cases hit : σ.iteration g cfg k with
      | error e => rw [hit] at he; cases he
      | ok σ1 =>
        rw [hit] at he
        have h1 := SRun.step k h hs (hk (k, ki) List.mem_cons_self) hit
        cases ki with
        | false =>
          obtain ⟨ks₁, τ, a1, a2, a3⟩ := ih _ _ _ h1 (fun x hx => hk x (List.mem_cons_of_mem _ hx)) he
          refine ⟨k :: ks₁, τ, ?_, by simpa using a2, a3⟩
          rw [List.map_cons]
          exact List.cons_prefix_cons.2 ⟨rfl, a1⟩
        | true =>
          have hst : Server.interruptLoop g cfg ks { σ1 with stop := true } = .ok { σ1 with stop := true } := by
            cases ks with
            | nil => rfl
            | cons x ks => unfold Server.interruptLoop; rfl
          simp only [if_true] at he
          rw [if_neg (by simp), hst] at he
          cases he
          refine ⟨[k], σ1, ?_, h1, Or.inr rfl⟩
          rw [List.map_cons]
          exact List.cons_prefix_cons.2 ⟨rfl, List.nil_prefix⟩

/-- The claim: `run_blockwise` returns `True` iff all blocks have completed, interrupted or not. -/
def C90_statement : Prop :=
  ∀ (N T K S : Type) [DecidableEq N] [DecidableEq T] [DecidableEq K] [DecidableEq S] (g : DGraph N T K)
    (cfg : SConf T) (ks : List (Server.Tick N T S × Bool)) (σ : Server N T K S), g.OK →
    (∀ k ∈ ks, GoodTick g cfg k.1) → Server.interruptLoop g cfg ks (Server.start g false) = .ok σ →
    (Server.result g σ = true ↔ ∀ n ∈ g.nodes, Done (evs σ.out) n)

/-- C90: an interrupt ends the run after the iteration in which it comes: whatever would have happened afterwards does
not matter. -/
theorem C90_prompt (pre post : List (Server.Tick N T S × Bool)) (k : Server.Tick N T S) : ∀ σ : Server N T K S,
    Server.interruptLoop g cfg (pre ++ (k, true) :: post) σ = Server.interruptLoop g cfg (pre ++ [(k, true)]) σ := by
  induction pre with
  | nil =>
    intro σ
    rw [List.nil_append, List.nil_append]
    unfold Server.interruptLoop
    split
    · rfl
    · split
      · rfl
      · cases post with
        | nil => rfl
        | cons x post => unfold Server.interruptLoop; rfl
  | cons x pre ih =>
    intro σ
    obtain ⟨x, b⟩ := x
    rw [List.cons_append, List.cons_append]
    unfold Server.interruptLoop
    split
    · rfl
    · split
      · rfl
      · exact ih _

/-- C90: without an interrupt the loop is the event loop. -/
theorem C90_uninterrupted (ks : List (Server.Tick N T S)) : ∀ σ : Server N T K S,
    Server.interruptLoop g cfg (ks.map (fun k => (k, false))) σ = Server.eventLoop g cfg ks σ := by
  induction ks with
  | nil => intro σ; rfl
  | cons k ks ih =>
    intro σ
    rw [List.map_cons]
    unfold Server.interruptLoop Server.eventLoop
    split
    · rfl
    · split
      · rfl
      · exact ih _

/-- C90: at the interrupt every counter agrees with what has happened until then; in particular a block that a client
has at that moment counts neither as completed nor as failed. -/
theorem C90_counters (hg : g.OK) {ks : List (Server.Tick N T S × Bool)} (hk : ∀ k ∈ ks, GoodTick g cfg k.1)
    {σ : Server N T K S} (he : Server.interruptLoop g cfg ks (Server.start g false) = .ok σ) (t : T) :
    (σ.sched.states t).completed = cnt g t (Done (evs σ.out)) ∧
    (σ.sched.states t).failed = cnt g t (Dead g (evs σ.out)) ∧
    ∀ n c, holder σ.out n = some c → ¬ Done (evs σ.out) n ∧ ¬ Dead g (evs σ.out) n := by
  obtain ⟨ks₁, τ, _, h, e⟩ := interrupt_reach ks [] _ σ SRun.init hk he
  have hi := h.inv hg
  have hc := C19_counters_partial hg hi.run t
  have hd := fun n => C19_disjoint_partial hg hi.run n
  have hh : ∀ n c, holder τ.out n = some c → ¬ Done (evs τ.out) n ∧ ¬ Dead g (evs τ.out) n := by
    intro n c hc
    have := (hd n).2.1 ((hi.held n).2 (by rw [hc]; exact Option.some_ne_none _))
    exact ⟨this.1, this.2.1⟩
  rcases e with rfl | rfl
  · exact ⟨hc.2.2.1, hc.2.2.2.2.1, hh⟩
  · exact ⟨hc.2.2.1, hc.2.2.2.2.1, hh⟩

/-- C90, partial.  The full claim has no hypothesis about failures and is false as C41 is (`C90_false`): if no block has
failed for good, an interrupted run returns `True` iff all blocks have completed. -/
theorem C90_result_partial (hg : g.Loose) {ks : List (Server.Tick N T S × Bool)} (hk : ∀ k ∈ ks, GoodTick g cfg k.1)
    {σ : Server N T K S} (he : Server.interruptLoop g cfg ks (Server.start g false) = .ok σ)
    (hf : ∀ n ∈ g.nodes, ¬ Dead g (evs σ.out) n) :
    Server.result g σ = true ↔ ∀ n ∈ g.nodes, Done (evs σ.out) n := by
  obtain ⟨ks₁, τ, _, h, e⟩ := interrupt_reach ks [] _ σ SRun.init hk he
  rcases e with rfl | rfl
  · exact C41_no_failures_partial hg h hf
  · have := C41_no_failures_partial (σ := τ) hg h hf
    exact this

/-- C90, partial: with failures, `True` means that every block has completed, has failed for good or is downstream of
such a block (if orphans are counted correctly, `C22`). -/
theorem C90_true_partial (hg : g.Loose) {ks : List (Server.Tick N T S × Bool)} (hk : ∀ k ∈ ks, GoodTick g cfg k.1)
    {σ : Server N T K S} (he : Server.interruptLoop g cfg ks (Server.start g false) = .ok σ)
    (hx : OrphanExact g (evs σ.out)) :
    Server.result g σ = true ↔
      ∀ n ∈ g.nodes, Done (evs σ.out) n ∨ Dead g (evs σ.out) n ∨ Orphan g (evs σ.out) n := by
  obtain ⟨ks₁, τ, _, h, e⟩ := interrupt_reach ks [] _ σ SRun.init hk he
  rcases e with rfl | rfl
  · exact C41_true_partial hg h hx
  · have := C41_true_partial (σ := τ) hg h hx
    exact this

/-- C90 is false as C41 is: the only block fails for good and the interrupt comes in the same iteration. -/
theorem C90_false : ¬ C90_statement := by
  intro hC
  have hok : (finGraph 1 1 (fun _ => []) (fun _ => 0) (fun _ => 0) [0]).OK :=
    finGraph_ok (by decide) (by decide) (by decide) (by decide)
  have hx : ((Server.interruptLoop (finGraph 1 1 (fun _ => []) (fun _ => 0) (fun _ => 0) [0]) Ex.conf1
      (((ticks [acq 0 7]).map (fun k => (k, false))) ++ (ticks [bad 0 7]).map (fun k => (k, true)))
      (Server.start (S := Nat) (finGraph 1 1 (fun _ => []) (fun _ => 0) (fun _ => 0) [0]) false)).toOption.map
        (fun σ => decide (Server.result (finGraph 1 1 (fun _ => []) (fun _ => 0) (fun _ => 0) [0]) σ = true ∧
          ¬ Done (evs σ.out) 0))) = some true := by decide +kernel
  cases hr : Server.interruptLoop (finGraph 1 1 (fun _ => []) (fun _ => 0) (fun _ => 0) [0]) Ex.conf1
      (((ticks [acq 0 7]).map (fun k => (k, false))) ++ (ticks [bad 0 7]).map (fun k => (k, true)))
      (Server.start (S := Nat) (finGraph 1 1 (fun _ => []) (fun _ => 0) (fun _ => 0) [0]) false) with
  | error e => rw [hr] at hx; cases hx
  | ok σ =>
    rw [hr] at hx
    have e := of_decide_eq_true (Option.some.inj hx)
    refine e.2 ((hC _ _ _ _ _ Ex.conf1 _ σ hok ?_ hr).1 e.1 0 (by decide))
    have good : ∀ (r : Server.Recv (Fin 1) (Fin 1) Nat),
        goodRecv (finGraph 1 1 (fun _ => []) (fun _ => 0) (fun _ => 0) [0]) Ex.conf1 r = true →
        ∀ k ∈ ticks [r], GoodTick (finGraph 1 1 (fun _ => []) (fun _ => 0) (fun _ => 0) [0]) Ex.conf1 k := by
      intro r hgr k hk
      refine ⟨?_, ticks_legal _ k hk⟩
      intro m s hm
      rw [List.mem_singleton.1 hk] at hm
      have hm' : r = .msg m s := hm
      rw [hm'] at hgr
      exact of_decide_eq_true hgr
    intro k hk
    rcases List.mem_append.1 hk with hk | hk
    · obtain ⟨k', hk', rfl⟩ := List.mem_map.1 hk
      exact good _ (by decide) k' hk'
    · obtain ⟨k', hk', rfl⟩ := List.mem_map.1 hk
      exact good _ (by decide) k' hk'

/-- Of two blocks one is back and the other is with its client when the user presses Ctrl-C: the run ends although
messages would follow, and the result is `False`. -/
example : ((Server.interruptLoop (finGraph 2 1 (fun _ => []) (fun _ => 0) (fun _ => 0) [0]) Ex.conf1
      (((ticks [acq 0 7, acq 0 8]).map (fun k => (k, false))) ++
        (((ticks [ret 0 7]).map (fun k => (k, true))) ++ (ticks [ret 1 8]).map (fun k => (k, false))))
      (Server.start (S := Nat) (finGraph 2 1 (fun _ => []) (fun _ => 0) (fun _ => 0) [0]) false)).toOption.map
        (fun σ => (σ.stop, (σ.sched.states 0).completed, (σ.sched.states 0).processing,
          Server.result (finGraph 2 1 (fun _ => []) (fun _ => 0) (fun _ => 0) [0]) σ))) =
    some (true, 1, 1, false) := by
  decide +kernel

end Verif
