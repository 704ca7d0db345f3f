import Verif.Props.PipelineRun
import Verif.Props.ServerStop

/-! # What asymmetric context does to the scheduler and the server

Task 1 of the pipeline `Ex.asymB` reads two more voxels below each block than it writes, and none above.
`upstream` and `downstream` disagree for it (C14), so it has no consistent dependency graph, and the
claims C17, C18, C19, C20, C21, C23, C24, C29, C34 and C41 are false for it, in all cases but C21
although no block ever fails, and although every client is correct. -/

namespace Verif

open Spec

/-- The pipeline has everything that the theorems about pipelines ask for, except for `Linked`. -/
def Ex.AsymWitness (p : Pipeline 1) : Prop :=
  ∃ tasks : List (Task 1), Pipeline.init tasks = .ok p ∧ UniqueIds tasks ∧ p.Wf ∧ p.RootLevels

theorem Ex.asym_witness : Ex.AsymWitness (Ex.pipe [Ex.asymB]) :=
  ⟨_, Ex.asym_init, Ex.asym_unique, Props.wf_of_regular Ex.asym_init Ex.asym_regular, Props.Ex.asym_rootLevels⟩

/-- All blocks of task 0 are processed. -/
def Ex.asymUp : List (Act (Block 1) Nat) :=
  (List.range 8).flatMap (fun k : Nat => [Act.acq 0 [], .good (Ex.blk1 0 k (k + 1) k (k + 1) k)])

/-- C18 is false for such pipelines: no block has failed, `max_retries` is 0, but a block has been handed out
twice. -/
theorem C18_false_asymmetric : ∃ p, Ex.AsymWitness p ∧ ∃ tr st b, Run p.view tr st ∧ p.BlockOf 1 b ∧
    (∀ n, .bad n ∉ tr) ∧ (p.view.maxRetries 1).toNat + 1 < tr.count (.hand b) := by
  have hx : (exec (Ex.pipe [Ex.asymB]).view (anyPick (Ex.blk1 0 0 2 0 2 0)) (Ex.asymUp ++ [.acq 1 [], .acq 1 []])).map
      (fun p => decide ((∀ e ∈ p.1, e ≠ .bad e.node) ∧
        ((Ex.pipe [Ex.asymB]).view.maxRetries 1).toNat + 1 < p.1.count (.hand (Ex.blk1 1 2 6 4 6 2)))) =
      some true := by decide +kernel
  obtain ⟨tr, st, hrun, e⟩ := exec_map (anyPick_legal _) _ hx
  obtain ⟨e1, e2⟩ := of_decide_eq_true e
  exact ⟨_, Ex.asym_witness, tr, st, _, hrun, ⟨_, _, rfl, rfl, by decide +kernel⟩, fun n hn => e1 _ hn rfl, e2⟩

/-- C24 is false for such pipelines: a block is handed out to two workers; both process it with success; the
second `release_block` raises `KeyError`. -/
theorem C24_false_asymmetric : ∃ p, Ex.AsymWitness p ∧ ∃ tr st b, Run p.view tr st ∧ p.BlockOf 1 b ∧
    (∀ n, .bad n ∉ tr) ∧ Held tr b ∧ ∀ pick, st.releaseBlock p.view pick b .success = .error .keyError := by
  have hx : (exec (Ex.pipe [Ex.asymB]).view (anyPick (Ex.blk1 0 0 2 0 2 0))
      (Ex.asymUp ++ [.acq 1 [], .acq 1 [], .good (Ex.blk1 1 2 6 4 6 2)])).map
      (fun p => decide ((∀ e ∈ p.1, e ≠ .bad e.node) ∧ Held p.1 (Ex.blk1 1 2 6 4 6 2) ∧
        (Ex.pipe [Ex.asymB]).view.key (Ex.blk1 1 2 6 4 6 2) ∉
          (p.2.queues ((Ex.pipe [Ex.asymB]).view.task (Ex.blk1 1 2 6 4 6 2))).processing)) =
      some true := by decide +kernel
  obtain ⟨tr, st, hrun, e⟩ := exec_map (anyPick_legal _) _ hx
  obtain ⟨e1, e2, e3⟩ := of_decide_eq_true e
  refine ⟨_, Ex.asym_witness, tr, st, _, hrun, ⟨_, _, rfl, rfl, by decide +kernel⟩, fun n hn => e1 _ hn rfl, e2,
    fun pick => ?_⟩
  unfold Sched.releaseBlock Sched.removeFromProcessing
  rw [if_neg e3]

/-- C19 is false for such pipelines: by its counters task 1 has completed all its three blocks and is done, but
only one of its blocks has completed (it was processed three times), and two are still ready. -/
theorem C19_false_asymmetric : ∃ p, Ex.AsymWitness p ∧ ∃ tr st b c c', Run p.view tr st ∧ p.BlockOf 1 b ∧
    p.BlockOf 1 c ∧ p.BlockOf 1 c' ∧ b ≠ c ∧ b ≠ c' ∧ c ≠ c' ∧ (∀ n, .bad n ∉ tr) ∧ (∀ n, ¬ Held tr n) ∧
    (st.states 1).isDone = true ∧ (st.states 1).completed = 3 ∧ (st.states 1).total = 3 ∧ tr.count (.good b) = 3 ∧
    ¬ Done tr c ∧ ¬ Done tr c' := by
  have hx : (exec (Ex.pipe [Ex.asymB]).view (anyPick (Ex.blk1 0 0 2 0 2 0))
      (Ex.asymUp ++ [.acq 1 [], .good (Ex.blk1 1 2 6 4 6 2), .acq 1 [], .good (Ex.blk1 1 2 6 4 6 2),
        .acq 1 [], .good (Ex.blk1 1 2 6 4 6 2)])).map
      (fun p => decide ((∀ e ∈ p.1, e ≠ .bad e.node) ∧ (∀ e ∈ p.1, ¬ Held p.1 e.node) ∧
        (p.2.states 1).isDone = true ∧ (p.2.states 1).completed = 3 ∧ (p.2.states 1).total = 3 ∧
        p.1.count (.good (Ex.blk1 1 2 6 4 6 2)) = 3 ∧ ¬ Done p.1 (Ex.blk1 1 0 4 2 4 1) ∧
        ¬ Done p.1 (Ex.blk1 1 4 8 6 8 3))) = some true := by decide +kernel
  obtain ⟨tr, st, hrun, e⟩ := exec_map (anyPick_legal _) _ hx
  obtain ⟨e1, e2, e3, e4, e5, e6, e7, e8⟩ := of_decide_eq_true e
  exact ⟨_, Ex.asym_witness, tr, st, _, _, _, hrun, ⟨_, _, rfl, rfl, by decide +kernel⟩,
    ⟨_, _, rfl, rfl, by decide +kernel⟩, ⟨_, _, rfl, rfl, by decide +kernel⟩, by decide +kernel, by decide +kernel,
    by decide +kernel, fun n hn => e1 _ hn rfl, Props.not_held_of e2, e3, e4, e5, e6, e7, e8⟩

/-- All blocks of task 0 are handed out, and then completed in the given order. -/
def Ex.asymOrder (order : List Nat) : List (Act (Block 1) Nat) :=
  List.replicate 8 (Act.acq 0 []) ++ order.map (fun k : Nat => .good (Ex.blk1 0 k (k + 1) k (k + 1) k))

/-- C20 is false for such pipelines: all blocks of task 0 have been completed, nothing is ready, nothing is held,
nothing has failed, but no block of task 1 was ever handed out. -/
theorem C20_false_asymmetric : ∃ p, Ex.AsymWitness p ∧ ∃ tr st, Run p.view tr st ∧ (∀ n, .bad n ∉ tr) ∧
    (∀ n, ¬ Held tr n) ∧ st.getReadyTasks p.view = [] ∧ (st.states 1).isDone = false ∧ (∃ b, p.BlockOf 1 b) ∧
    ∀ b, p.BlockOf 1 b → ¬ Done tr b := by
  have hx : (exec (Ex.pipe [Ex.asymB]).view (anyPick (Ex.blk1 0 0 2 0 2 0)) (Ex.asymOrder [4, 5, 6, 7, 0, 1, 2, 3])).map
      (fun p => decide ((∀ e ∈ p.1, e ≠ .bad e.node) ∧ (∀ e ∈ p.1, ¬ Held p.1 e.node) ∧
        p.2.getReadyTasks (Ex.pipe [Ex.asymB]).view = [] ∧ (p.2.states 1).isDone = false ∧
        ∀ e ∈ p.1, e.node.taskId = 0)) = some true := by decide +kernel
  obtain ⟨tr, st, hrun, e⟩ := exec_map (anyPick_legal _) _ hx
  obtain ⟨e1, e2, e3, e4, e5⟩ := of_decide_eq_true e
  refine ⟨_, Ex.asym_witness, tr, st, hrun, fun n hn => e1 _ hn rfl, Props.not_held_of e2, e3, e4,
    ⟨Ex.blk1 1 2 6 4 6 2, _, _, rfl, rfl, by decide +kernel⟩, ?_⟩
  intro b hb hd
  have ht := Pipeline.blockOf_taskId (Pipeline.built_of_init Ex.asym_init Ex.asym_unique).1
    (Props.wf_of_regular Ex.asym_init Ex.asym_regular) hb
  rcases hd with hd | hd <;> exact absurd (ht.symm.trans (e5 _ hd)) (by decide)

/-- C21 is false for such pipelines: the first block of task 0 fails for good and is upstream of a block of task 1,
which is not reported as an orphan. -/
theorem C21_false_asymmetric : ∃ p, Ex.AsymWitness p ∧ ∃ tr st rep b, RunOrph p.view tr st rep ∧ p.BlockOf 1 b ∧
    b ∈ p.view.nodes ∧ Orphan p.view tr b ∧ b ∉ rep := by
  have hx : ((Sched.init (Ex.pipe [Ex.asymB]).view).acquireBlock (Ex.pipe [Ex.asymB]).view (fun _ _ => .reject) 0).toOption.map
      (fun x => decide (acquireEvents x.1 x.2.1 = [.hand (Ex.blk1 0 0 1 0 1 0)] ∧
        (x.2.2.releaseBlock (Ex.pipe [Ex.asymB]).view (anyPick (Ex.blk1 0 0 2 0 2 0)) (Ex.blk1 0 0 1 0 1 0)
          .failed).toOption.isSome = true ∧
        x.2.2.orphansOf (Ex.pipe [Ex.asymB]).view (anyPick (Ex.blk1 0 0 2 0 2 0)) (Ex.blk1 0 0 1 0 1 0) .failed = ∅)) =
      some true := by decide +kernel
  rcases hacq : (Sched.init (Ex.pipe [Ex.asymB]).view).acquireBlock (Ex.pipe [Ex.asymB]).view (fun _ _ => .reject) 0 with
    e | ⟨skips, r, st⟩
  · rw [hacq] at hx
    cases hx
  · rw [hacq] at hx
    obtain ⟨e1, e2, e3⟩ := of_decide_eq_true (Option.some.inj hx)
    dsimp only at e1 e2 e3
    rcases hrel : st.releaseBlock (Ex.pipe [Ex.asymB]).view (anyPick (Ex.blk1 0 0 2 0 2 0)) (Ex.blk1 0 0 1 0 1 0)
        .failed with e | st'
    · rw [hrel] at e2
      cases e2
    · have h1 := RunOrph.acquire _ _ RunOrph.init hacq
      rw [e1, List.nil_append] at h1
      have h2 := RunOrph.bad (anyPick (Ex.blk1 0 0 2 0 2 0)) h1 (by decide) (anyPick_legal _) hrel
      rw [e3, Finset.union_empty] at h2
      refine ⟨_, Ex.asym_witness, _, st', _, Ex.blk1 1 0 4 2 4 1, h2, ⟨_, _, rfl, rfl, by decide +kernel⟩,
        by decide +kernel, ⟨Ex.blk1 0 0 1 0 1 0, by decide +kernel, Relation.TransGen.single ?_⟩, by simp⟩
      change _ ∈ (Ex.pipe [Ex.asymB]).view.up _
      decide +kernel

/-- C23 is false for such pipelines: two complete executions of it, in both of which no block fails; in the first
one a block of task 1 has completed, in the second one it has not. -/
theorem C23_false_asymmetric : ∃ p, Ex.AsymWitness p ∧ ∃ tr₁ st₁ tr₂ st₂ b, Run p.view tr₁ st₁ ∧ Run p.view tr₂ st₂ ∧
    st₁.getReadyTasks p.view = [] ∧ st₂.getReadyTasks p.view = [] ∧ (∀ n, ¬ Held tr₁ n) ∧ (∀ n, ¬ Held tr₂ n) ∧
    (∀ n, .bad n ∉ tr₁) ∧ (∀ n, .bad n ∉ tr₂) ∧ p.BlockOf 1 b ∧ Done tr₁ b ∧ ¬ Done tr₂ b := by
  have hx : (exec (Ex.pipe [Ex.asymB]).view (anyPick (Ex.blk1 0 0 2 0 2 0)) (Ex.asymOrder [0, 1, 2, 3, 4, 6, 7, 5] ++
      [.acq 1 [], .good (Ex.blk1 1 2 6 4 6 2), .acq 1 [], .good (Ex.blk1 1 4 8 6 8 3)])).map
      (fun p => decide ((∀ e ∈ p.1, e ≠ .bad e.node) ∧ (∀ e ∈ p.1, ¬ Held p.1 e.node) ∧
        p.2.getReadyTasks (Ex.pipe [Ex.asymB]).view = [] ∧ Done p.1 (Ex.blk1 1 2 6 4 6 2))) =
      some true := by decide +kernel
  obtain ⟨tr, st, hrun, e⟩ := exec_map (anyPick_legal _) _ hx
  obtain ⟨e1, e2, e3, e4⟩ := of_decide_eq_true e
  have hx' : (exec (Ex.pipe [Ex.asymB]).view (anyPick (Ex.blk1 0 0 2 0 2 0)) (Ex.asymOrder [4, 5, 6, 7, 0, 1, 2, 3])).map
      (fun p => decide ((∀ e ∈ p.1, e ≠ .bad e.node) ∧ (∀ e ∈ p.1, ¬ Held p.1 e.node) ∧
        p.2.getReadyTasks (Ex.pipe [Ex.asymB]).view = [] ∧ ¬ Done p.1 (Ex.blk1 1 2 6 4 6 2))) =
      some true := by decide +kernel
  obtain ⟨tr', st', hrun', e'⟩ := exec_map (anyPick_legal _) _ hx'
  obtain ⟨f1, f2, f3, f4⟩ := of_decide_eq_true e'
  exact ⟨_, Ex.asym_witness, tr, st, tr', st', _, hrun, hrun', e3, f3, Props.not_held_of e2, Props.not_held_of f2,
    fun n hn => e1 _ hn rfl, fun n hn => f1 _ hn rfl, ⟨_, _, rfl, rfl, by decide +kernel⟩, e4, f4⟩

/-! ### The server -/

/-- A client asks for a block. -/
noncomputable def Ex.asymAsk (t s : Nat) : Server.Tick (Block 1) Nat Nat :=
  tick (anyPick (Ex.blk1 0 0 2 0 2 0)) (.msg (.acquire t) s)

/-- A client returns a block with SUCCESS. -/
noncomputable def Ex.asymRet (b : Block 1) (s : Nat) : Server.Tick (Block 1) Nat Nat :=
  tick (anyPick (Ex.blk1 0 0 2 0 2 0)) (.msg (.release b .success) s)

/-- Client 0 processes all blocks of task 0. -/
noncomputable def Ex.asymFirst : List (Server.Tick (Block 1) Nat Nat) :=
  (List.range 8).flatMap (fun k : Nat => [Ex.asymAsk 0 0, Ex.asymRet (Ex.blk1 0 k (k + 1) k (k + 1) k) 0])

/-- `run_blockwise` is given both tasks, downstream tasks first. -/
def Ex.asymConf : SConf Nat := ⟨[1, 0], fun _ => none⟩

theorem Ex.asym_legal {as : List (Server.Tick (Block 1) Nat Nat)}
    (h : ∀ k ∈ as, (∃ t s, k = Ex.asymAsk t s) ∨ ∃ b s, k = Ex.asymRet b s) :
    ∀ k ∈ as, LegalPick k.pick ∧ ∀ n, LegalPick (k.pickLost n) := by
  intro k hk
  rcases h k hk with ⟨t, s, rfl⟩ | ⟨b, s, rfl⟩ <;> exact ⟨anyPick_legal _, fun _ => anyPick_legal _⟩

theorem Ex.asymFirst_form : ∀ k ∈ Ex.asymFirst, (∃ t s, k = Ex.asymAsk t s) ∨ ∃ b s, k = Ex.asymRet b s := by
  intro k hk
  obtain ⟨i, _, hk⟩ := List.mem_flatMap.1 hk
  simp only [List.mem_cons, List.not_mem_nil, or_false] at hk
  rcases hk with rfl | rfl
  · exact Or.inl ⟨_, _, rfl⟩
  · exact Or.inr ⟨_, _, rfl⟩

/-- The exception that a call raises, if any. -/
def raised {α : Type} : Except PyErr α → Option PyErr
  | .ok _ => none
  | .error e => some e

/-- C29 is false for such pipelines: client 1 has a block of task 1, client 2 asks for a block of task 1, and the
server raises `AssertionError` ("Attempted to send block ..., although it is already being processed"): the run
ends.  No block has failed and all messages are those of correct clients. -/
theorem C29_false_asymmetric : ∃ p, Ex.AsymWitness p ∧ ∃ cfg ks σ k,
    SRun (S := Nat) p.view cfg ks σ ∧ σ.stop = false ∧ (∀ n, .bad n ∉ evs σ.out) ∧ GoodTick p.view cfg k ∧
    k.recv = .msg (.acquire 1) 2 ∧ σ.iteration p.view cfg k = .error .assertion := by
  have hx : (sexec (Ex.pipe [Ex.asymB]).view Ex.asymConf (Ex.asymFirst ++ [Ex.asymAsk 1 1])).map
      (fun σ => decide (σ.stop = false ∧ (∀ e ∈ evs σ.out, e ≠ .bad e.node) ∧
        raised (σ.iteration (Ex.pipe [Ex.asymB]).view Ex.asymConf (Ex.asymAsk 1 2)) = some .assertion)) = some true := by decide +kernel
  obtain ⟨σ, h, e⟩ := sexec_run (Ex.asym_legal (by
    intro k hk
    rcases List.mem_append.1 hk with hk | hk
    · exact Ex.asymFirst_form k hk
    · exact Or.inl ⟨_, _, List.mem_singleton.1 hk⟩)) _ hx
  obtain ⟨e1, e2, e3⟩ := of_decide_eq_true e
  refine ⟨_, Ex.asym_witness, _, _, σ, Ex.asymAsk 1 2, h, e1, fun n hn => e2 _ hn rfl,
    ⟨?_, anyPick_legal _, fun _ => anyPick_legal _⟩, rfl, ?_⟩
  · intro m s hm
    cases hm
    decide
  · revert e3
    rcases σ.iteration (Ex.pipe [Ex.asymB]).view Ex.asymConf (Ex.asymAsk 1 2) with e | σ'
    · intro e3
      rw [Option.some.inj e3]
    · intro e3
      cases e3

/-- C34 and C41 are false for such pipelines even if nothing ever fails: the server stops, `run_blockwise` returns
`True`, but two of the three blocks of task 1 were never sent to a client. -/
theorem C41_false_asymmetric : ∃ p, Ex.AsymWitness p ∧ ∃ cfg ks σ c c', SRun (S := Nat) p.view cfg ks σ ∧ σ.stop = true ∧
    Server.result p.view σ = true ∧ p.BlockOf 1 c ∧ p.BlockOf 1 c' ∧ c ≠ c' ∧ (∀ n, .bad n ∉ evs σ.out) ∧
    ∀ e ∈ evs σ.out, e.node ≠ c ∧ e.node ≠ c' := by
  have hx : (sexec (Ex.pipe [Ex.asymB]).view Ex.asymConf (Ex.asymFirst ++ [Ex.asymAsk 1 1,
      Ex.asymRet (Ex.blk1 1 2 6 4 6 2) 1, Ex.asymAsk 1 1, Ex.asymRet (Ex.blk1 1 2 6 4 6 2) 1, Ex.asymAsk 1 1,
      Ex.asymRet (Ex.blk1 1 2 6 4 6 2) 1])).map
      (fun σ => decide (σ.stop = true ∧ Server.result (Ex.pipe [Ex.asymB]).view σ = true ∧
        (∀ e ∈ evs σ.out, e ≠ .bad e.node) ∧
        ∀ e ∈ evs σ.out, e.node ≠ Ex.blk1 1 0 4 2 4 1 ∧ e.node ≠ Ex.blk1 1 4 8 6 8 3)) = some true := by decide +kernel
  obtain ⟨σ, h, e⟩ := sexec_run (Ex.asym_legal (by
    intro k hk
    rcases List.mem_append.1 hk with hk | hk
    · exact Ex.asymFirst_form k hk
    · simp only [List.mem_cons, List.not_mem_nil, or_false] at hk
      rcases hk with rfl | rfl | rfl | rfl | rfl | rfl
      · exact Or.inl ⟨_, _, rfl⟩
      · exact Or.inr ⟨_, _, rfl⟩
      · exact Or.inl ⟨_, _, rfl⟩
      · exact Or.inr ⟨_, _, rfl⟩
      · exact Or.inl ⟨_, _, rfl⟩
      · exact Or.inr ⟨_, _, rfl⟩)) _ hx
  obtain ⟨e1, e2, e3, e4⟩ := of_decide_eq_true e
  exact ⟨_, Ex.asym_witness, _, _, σ, _, _, h, e1, e2, ⟨_, _, rfl, rfl, by decide +kernel⟩,
    ⟨_, _, rfl, rfl, by decide +kernel⟩, by decide +kernel, fun n hn => e3 _ hn rfl, e4⟩

end Verif
