import Verif.Proofs.SerialRun
import Verif.Spec.SerialExec
import Verif.Props.PipelineRun
import Verif.Props.ServerProgress

/-! # C37–C39: serial execution -/

namespace Verif

open Spec

variable {N T K : Type} [DecidableEq N] [DecidableEq T] [DecidableEq K] {g : DGraph N T K}
  {served : List T} {σ σ' : Serial N T K} {k : SerTick N T} {ks : List (SerTick N T)}

/-! ### C37 -/

/-- C37, order, for any check functions and process functions: when a block is processed, everything
upstream of it has been processed successfully or skipped. -/
theorem C37_order (hg : g.Loose) (h : SerRun g served ks σ) {pre post : List (SerOut N T)} {n a : N}
    (ho : σ.out = pre ++ .call n :: post) (ha : Anc g a n) :
    .release a .success ∈ pre ∨ .skip a ∈ pre := by
  have e : serEvs σ.out = serEvs pre ++ .hand n :: serEvs post := by
    rw [ho, serEvs_append]
    rfl
  rcases loose_order hg (h.inv hg).run e ha with h1 | h1
  · exact Or.inl ((mem_good pre a).1 h1)
  · exact Or.inr ((mem_skip pre a).1 h1)

/-- C37, partial: proved for consistent dependency graphs; see `C37_pipeline_partial` for the pipelines
that have one, and `C37_false_asymmetric` for one that has not.  With process functions that never mark
a block failed and without check functions, when `run_blockwise` returns the process function has been
called exactly once for every block of every task (and for nothing else), every block has been
released with SUCCESS, and all tasks are done. -/
theorem C37_each_once_partial (hg : g.OK) (hs : ∀ t ∈ g.tasks, t ∈ served) (h : SerRun g served ks σ)
    (hk : ∀ k ∈ ks, SerTick.Succeeds k ∧ SerTick.NoSkips k) (hend : σ.ended = true) :
    (∀ n ∈ g.nodes, σ.out.count (.call n) = 1 ∧ .release n .success ∈ σ.out) ∧
    (∀ n, .call n ∈ σ.out → n ∈ g.nodes) ∧ (∀ t ∈ g.tasks, (σ.sched.states t).isDone = true) := by
  have hi := h.inv hg
  have hbad := no_bad hg h (fun k hk' => (hk k hk').1)
  have hskip := no_skip hg h (fun k hk' => (hk k hk').2)
  have hx := exact_of_no_bad (g := g) hbad
  have hdone : ∀ n ∈ g.nodes, Done (serEvs σ.out) n := by
    intro n hn
    have hfin : Done (serEvs σ.out) n ∨ Dead g (serEvs σ.out) n ∨ Orphan g (serEvs σ.out) n := by
      rcases hi.ended hend with h1 | h1
      · exact hi.fin hx _ (h1 _ (hs _ (hg.task_mem n hn))) n hn rfl
      · exact finished_of_idle hg (fun n hn => not_starved hg n (h1 (fun x hx => absurd hx (hskip x)) n hn)) hi.idle n hn
    rcases hfin with h1 | h1 | ⟨f, h1, _⟩
    · exact h1
    · exact absurd h1.1 (hbad n)
    · exact absurd h1.1 (hbad f)
  have hgood : ∀ n ∈ g.nodes, .good n ∈ serEvs σ.out := fun n hn =>
    (hdone n hn).resolve_right (hskip n)
  refine ⟨?_, ?_, ?_⟩
  · intro n hn
    rw [count_call]
    exact ⟨hand_once hg hi hbad (hgood n hn), (mem_good _ _).1 (hgood n hn)⟩
  · intro n hn
    exact (hi.run.facts hg).node _ ((mem_hand _ _).2 hn)
  · intro t _
    rw [C22_loose_is_done_partial hg hi.run hx]
    exact fun n hn _ => Or.inl (hdone n hn)

/-- C37, no exception (check functions may skip blocks): if no process function raises or marks a
block, `run_blockwise` does not raise. -/
theorem C37_never_raises_partial (hg : g.Loose) (hs : ∀ t ∈ g.tasks, t ∈ served)
    (h : SerRun g served ks σ) (hks : ∀ k ∈ ks, SerTick.Succeeds k) (he : σ.ended = false)
    (hpick : LegalPick k.pick) (hk : SerTick.Succeeds k) : ∃ σ', σ.pass g served k = .ok σ' :=
  pass_ok hg h hs (exact_of_no_bad (no_bad hg h hks)) he hpick (fun n => (hk n).1)

/-- C37, it returns: whatever well-behaved functions do, after at most one pass more than there are
blocks the loop has ended (check functions may skip blocks). -/
theorem C37_returns_partial (hg : g.Loose) (hs : ∀ t ∈ g.tasks, t ∈ served) (tick : Nat → SerTick N T)
    (hpick : ∀ i, LegalPick (tick i).pick) (hk : ∀ i, SerTick.Succeeds (tick i)) :
    ∃ m σ, m ≤ g.nodes.length + 1 ∧ SerRun g served ((List.range m).map tick) σ ∧ σ.ended = true := by
  have hk' : ∀ m, ∀ k ∈ (List.range m).map tick, SerTick.Succeeds k := by
    intro m k hkm
    obtain ⟨i, _, rfl⟩ := List.mem_map.1 hkm
    exact hk i
  refine returns_of tick _ hpick ?_ ?_
  · intro m σ h he
    exact C37_never_raises_partial hg hs h (hk' m) he (hpick m) (hk m)
  · intro m σ h
    have h1 := passes_le hg h
    rw [List.length_map, List.length_range, hands_by_node hg (h.inv hg).run] at h1
    have hbad := no_bad hg h (hk' m)
    have h2 := sum_map_le g.nodes (fun n => (serEvs σ.out).count (.hand n)) (fun _ => 1) (by
      intro n
      have h1 := ((h.inv hg).run.facts hg).once n
      have h2 := ((h.inv hg).run.facts hg).bal n
      have h3 := (h.inv hg).idle n
      have h4 : (serEvs σ.out).count (.bad n) = 0 := List.count_eq_zero.2 (hbad n)
      unfold Held at h3
      omega)
    have h3 : (g.nodes.map (fun _ => 1)).sum = g.nodes.length := by simp
    split at h1 <;> omega

/-- All of `vee` in four passes. -/
example : Ex.vee.OK ∧ (∀ t ∈ Ex.vee.tasks, t ∈ [(1 : Fin 2), 0]) ∧
    ∃ ks σ, SerRun Ex.vee [1, 0] ks σ ∧ (∀ k ∈ ks, SerTick.Succeeds k ∧ SerTick.NoSkips k) ∧
      σ.ended = true ∧ σ.out = [.taskStart 0, .acquired 0, .call 0, .release 0 .success, .released 0,
        .acquired 0, .call 1, .release 1 .success, .released 0, .taskDone 0,
        .taskStart 1, .acquired 1, .call 2, .release 2 .success, .released 1,
        .acquired 1, .call 3, .release 3 .success, .released 1, .taskDone 1, .exit] := by
  refine ⟨Ex.vee_ok, by decide, ?_⟩
  have hx : (serExec Ex.vee [1, 0] (List.replicate 4 (serTick pickMin))).map
      (fun σ => (σ.ended, σ.out)) = some (true, [.taskStart 0, .acquired 0, .call 0,
        .release 0 .success, .released 0, .acquired 0, .call 1, .release 1 .success, .released 0,
        .taskDone 0, .taskStart 1, .acquired 1, .call 2, .release 2 .success, .released 1,
        .acquired 1, .call 3, .release 3 .success, .released 1, .taskDone 1, .exit]) := by
    decide +kernel
  obtain ⟨σ, h1, h2⟩ := serExec_run (by
    intro k hk
    rw [List.eq_of_mem_replicate hk]
    exact pickMin_legal) _ hx
  rw [Prod.mk.injEq] at h2
  refine ⟨_, σ, h1, ?_, h2⟩
  intro k hk
  rw [List.eq_of_mem_replicate hk]
  exact ⟨fun n => by simp [serTick], fun t i n => by simp [serTick]⟩

/-- C37 for pipelines, partial: links that agree in both directions, and every dependent block reads
something an upstream block writes. -/
theorem C37_pipeline_partial {d : Nat} {tasks : List (Task d)} {p : Pipeline d}
    {σ : Serial (Block d) Nat (Nat × Int)} {ks : List (SerTick (Block d) Nat)} {served : List Nat}
    (hp : Pipeline.init tasks = .ok p) (hid : UniqueIds tasks) (hw : p.Wf) (hr : p.RootLevels)
    (hl : p.Linked) (hf : p.Fed) (hs : ∀ t ∈ p.tg.ids, t ∈ served) (h : SerRun p.view served ks σ)
    (hk : ∀ k ∈ ks, SerTick.Succeeds k ∧ SerTick.NoSkips k) (hend : σ.ended = true) :
    (∀ x b, p.BlockOf x b → σ.out.count (.call b) = 1 ∧ .release b .success ∈ σ.out) ∧
    (∀ t ∈ p.tg.ids, (σ.sched.states t).isDone = true) := by
  have hbt := (Pipeline.built_of_init hp hid).1
  have hok := Pipeline.dgraph_OK hbt hw hr hl hf
  obtain ⟨ns, n1, _, n3⟩ := Pipeline.blocks_spec hbt hw
  have i0 : p.view.nodes = ns := Pipeline.okOr_ok n1
  obtain ⟨h1, _, h3⟩ := C37_each_once_partial hok hs h hk hend
  exact ⟨fun x b hb => h1 b (i0 ▸ (n3 b).2 ⟨x, hb⟩), h3⟩

/-- C37 is false for a pipeline whose dependent task has different context on the two sides: every
call succeeds and `run_blockwise` returns with all tasks done, but block `[4,6)` of task 1 has been
processed three times and its block `[6,8)` never. -/
theorem C37_false_asymmetric : ∃ (tasks : List (Task 1)) (p : Pipeline 1),
    Pipeline.init tasks = .ok p ∧ UniqueIds tasks ∧ p.Wf ∧ p.RootLevels ∧ ∃ ks σ b c,
      SerRun p.view [1, 0] ks σ ∧ (∀ k ∈ ks, SerTick.Succeeds k ∧ SerTick.NoSkips k) ∧
      σ.ended = true ∧ (∀ t ∈ p.tg.ids, (σ.sched.states t).isDone = true) ∧
      p.BlockOf 1 b ∧ p.BlockOf 1 c ∧ σ.out.count (.call b) = 3 ∧ .call c ∉ σ.out := by
  have hx : (serExec (Ex.pipe [Ex.asymB]).view [1, 0]
      (List.replicate 11 (serTick (anyPick (Ex.blk1 0 0 2 0 2 0))))).map
      (fun σ => decide (σ.ended = true ∧
        (∀ t ∈ (Ex.pipe [Ex.asymB]).tg.ids, (σ.sched.states t).isDone = true) ∧
        σ.out.count (.call (Ex.blk1 1 2 6 4 6 2)) = 3 ∧ .call (Ex.blk1 1 4 8 6 8 3) ∉ σ.out)) =
      some true := by decide +kernel
  obtain ⟨σ, h1, h2⟩ := serExec_run (by
    intro k hk
    rw [List.eq_of_mem_replicate hk]
    exact anyPick_legal _) _ hx
  obtain ⟨e1, e2, e3, e4⟩ := of_decide_eq_true h2
  refine ⟨[Ex.asymB], _, Ex.asym_init, Ex.asym_unique,
    Props.wf_of_regular Ex.asym_init Ex.asym_regular, Props.Ex.asym_rootLevels, _, σ, _, _, h1, ?_, e1, e2,
    ⟨_, _, rfl, rfl, by decide +kernel⟩, ⟨_, _, rfl, rfl, by decide +kernel⟩, e3, e4⟩
  intro k hk
  rw [List.eq_of_mem_replicate hk]
  exact ⟨fun n => by simp [serTick], fun t i n => by simp [serTick]⟩

/-! ### C38 -/

/-- C38, partial: the full claim has no hypothesis on which blocks are skipped and is false
(`C38_false`).  If check functions accept only blocks whose dependents belong to the same task, then
when `run_blockwise` returns every block has either been processed (once, successfully) or skipped,
and all tasks are done. -/
theorem C38_resume_partial (hg : g.OK) (hs : ∀ t ∈ g.tasks, t ∈ served) (h : SerRun g served ks σ)
    (hk : ∀ k ∈ ks, SerTick.Succeeds k)
    (hloc : ∀ x, .skip x ∈ σ.out → ∀ d ∈ g.nodes, x ∈ g.up d → g.task d = g.task x)
    (hend : σ.ended = true) :
    (∀ n ∈ g.nodes, (σ.out.count (.call n) = 1 ∧ .release n .success ∈ σ.out ∧ .skip n ∉ σ.out) ∨
      (.skip n ∈ σ.out ∧ .call n ∉ σ.out)) ∧ (∀ t ∈ g.tasks, (σ.sched.states t).isDone = true) := by
  have hi := h.inv hg
  have hbad := no_bad hg h hk
  have hx := exact_of_no_bad (g := g) hbad
  have hdone : ∀ n ∈ g.nodes, Done (serEvs σ.out) n := by
    intro n hn
    have hfin : Done (serEvs σ.out) n ∨ Dead g (serEvs σ.out) n ∨ Orphan g (serEvs σ.out) n := by
      rcases hi.ended hend with h1 | h1
      · exact hi.fin hx _ (h1 _ (hs _ (hg.task_mem n hn))) n hn rfl
      · exact finished_of_idle hg (fun n hn => not_starved hg n (h1 (fun x hx => hloc x ((mem_skip _ x).1 hx)) n hn)) hi.idle n hn
    rcases hfin with h1 | h1 | ⟨f, h1, _⟩
    · exact h1
    · exact absurd h1.1 (hbad n)
    · exact absurd h1.1 (hbad f)
  refine ⟨?_, ?_⟩
  · intro n hn
    have honce := (hi.run.facts hg).once n
    rcases hdone n hn with h1 | h1
    · left
      rw [count_call, ← mem_skip]
      refine ⟨hand_once hg hi hbad h1, (mem_good _ _).1 h1, ?_⟩
      intro h2
      have := List.count_pos_iff.2 h1
      have := List.count_pos_iff.2 h2
      omega
    · right
      refine ⟨(mem_skip _ _).1 h1, ?_⟩
      rw [← mem_hand]
      intro h2
      have h3 := List.count_pos_iff.2 h1
      have h4 := List.count_pos_iff.2 h2
      have h5 := (hi.run.facts hg).bal n
      have h6 : (serEvs σ.out).count (.bad n) = 0 := List.count_eq_zero.2 (hbad n)
      have h7 := hi.idle n
      unfold Held at h7
      omega
  · intro t _
    rw [C22_loose_is_done_partial hg hi.run hx]
    exact fun n hn _ => Or.inl (hdone n hn)

/-- C38 in full for a single task. -/
theorem C38_single_task (hg : g.OK) {t : T} (ht : ∀ n ∈ g.nodes, g.task n = t)
    (hs : ∀ t ∈ g.tasks, t ∈ served) (h : SerRun g served ks σ) (hk : ∀ k ∈ ks, SerTick.Succeeds k)
    (hend : σ.ended = true) :
    (∀ n ∈ g.nodes, (σ.out.count (.call n) = 1 ∧ .release n .success ∈ σ.out ∧ .skip n ∉ σ.out) ∨
      (.skip n ∈ σ.out ∧ .call n ∉ σ.out)) ∧ (∀ t ∈ g.tasks, (σ.sched.states t).isDone = true) :=
  C38_resume_partial hg hs h hk (fun x hx d hd _ => by
    rw [ht d hd, ht x (((h.inv hg).run.facts hg).node _ ((mem_skip _ x).2 hx))]) hend

/-- C38, what is skipped is what the check function accepts: in a pass, every skipped block was
accepted by the check function of its task in that pass, and the processed block was not. -/
theorem C38_skips (hg : g.Loose) (h : SerRun g served ks σ) (he : σ.ended = false)
    (hpick : LegalPick k.pick) (hp : σ.pass g served k = .ok σ') :
    ∃ new, σ'.out = σ.out ++ new ∧
      (∀ x, .skip x ∈ new → ∃ i, k.chk (g.task x) i x = .accept) ∧
      (∀ x, .call x ∈ new → ∃ i, k.chk (g.task x) i x ≠ .accept) := by
  have hi := h.inv hg
  rcases pass_cases hg hi he hpick with ⟨σ1, sk, h1, h2⟩ | ⟨sk, m, st, _, _, h1 | h1 | ⟨σ1, h1, h2⟩⟩
  · rw [h1] at hp; cases hp
    refine ⟨sk.map .skip ++ [.exit], by rw [h2.out, List.append_assoc], ?_, ?_⟩
    · intro x hx
      rcases h2.why with h3 | h3
      · rw [h3.2.1] at hx
        simp at hx
      · obtain ⟨sk', r, st', f1, _, f3, _⟩ := acquireAny_spec hg k.chk (σ.sched.getReadyTasks g) hi.run
        rw [f1] at h3
        cases h3
        exact (f3 x (by simpa using hx)).2
    · intro x hx
      simp at hx
  · rw [h1.2] at hp; cases hp
  · rw [h1.2.2] at hp; cases hp
  · rw [h1] at hp; cases hp
    obtain ⟨_, r2, r3, _⟩ := h2.run hg hi hpick
    obtain ⟨s, d, e, h3, h4, h5, h6⟩ := h2.out
    refine ⟨_, by rw [h3]; simp only [List.append_assoc]; rfl, ?_, ?_⟩
    · intro x hx
      have : x ∈ sk := by
        rw [h4, h5, h6] at hx
        simp only [List.mem_append, List.mem_map] at hx
        rcases hx with ⟨y, hy, he⟩ | hx | hx | hx | hx
        · cases he; exact hy
        · split at hx <;> simp at hx
        · simp at hx
        · split at hx <;> simp at hx
        · split at hx <;> simp at hx
      exact r2 x this
    · intro x hx
      have : x = m := by
        rw [h4, h5, h6] at hx
        simp only [List.mem_append, List.mem_map] at hx
        rcases hx with ⟨y, hy, he⟩ | hx | hx | hx | hx
        · cases he
        · split at hx <;> simp at hx
        · simpa using hx
        · split at hx <;> simp at hx
        · split at hx <;> simp at hx
      rw [this]
      exact r3

/-- Resuming the second task of `two`: block 2 is skipped, block 3 is processed. -/
example : Ex.two.OK ∧ ∃ ks σ, SerRun Ex.two [1, 0] ks σ ∧ (∀ k ∈ ks, SerTick.Succeeds k) ∧
    (∀ x, .skip x ∈ σ.out → ∀ d ∈ Ex.two.nodes, x ∈ Ex.two.up d → Ex.two.task d = Ex.two.task x) ∧
    σ.ended = true ∧ .skip 2 ∈ σ.out ∧ .call 3 ∈ σ.out := by
  refine ⟨Ex.two_ok, ?_⟩
  have hx : (serExec Ex.two [1, 0] (List.replicate 3 (serTick pickMin [2]))).map
      (fun σ => decide ((∀ x, .skip x ∈ σ.out → x = 2) ∧ σ.ended = true ∧ .skip 2 ∈ σ.out ∧
        .call 3 ∈ σ.out)) = some true := by decide +kernel
  obtain ⟨σ, h1, h2⟩ := serExec_run (by
    intro k hk
    rw [List.eq_of_mem_replicate hk]
    exact pickMin_legal) _ hx
  have h3 := of_decide_eq_true h2
  refine ⟨_, σ, h1, ?_, ?_, h3.2⟩
  · intro k hk
    rw [List.eq_of_mem_replicate hk]
    exact fun n => by simp [serTick]
  · intro x hx
    rw [h3.1 x hx]
    decide

/-- C38 is false: both blocks of the first task were done in an earlier run and are skipped.  The list
of ready tasks was made before they were skipped, so no block is found and `run_blockwise` returns:
the blocks of the second task are ready but have not been processed, and observers have not been told
that the first task is done. -/
theorem C38_false : ∃ (g : DGraph (Fin 4) (Fin 2) (Fin 4)) (ks : List (SerTick (Fin 4) (Fin 2)))
    (σ : Serial (Fin 4) (Fin 2) (Fin 4)), g.OK ∧ (∀ t ∈ g.tasks, t ∈ [(1 : Fin 2), 0]) ∧
    SerRun g [1, 0] ks σ ∧ (∀ k ∈ ks, SerTick.Succeeds k) ∧ σ.ended = true ∧
    (∀ n, g.task n = 1 → Ready g (serEvs σ.out) n) ∧ (σ.sched.states 1).isDone = false ∧
    (∀ t, .taskDone t ∉ σ.out) := by
  have hx : (serExec Ex.two [1, 0] [serTick pickMin [0, 1]]).map
      (fun σ => decide (σ.ended = true ∧ (∀ n, Ex.two.task n = 1 → Ready Ex.two (serEvs σ.out) n) ∧
        (σ.sched.states 1).isDone = false ∧ (∀ t, .taskDone t ∉ σ.out))) = some true := by
    decide +kernel
  obtain ⟨σ, h1, h2⟩ := serExec_run (by
    intro k hk
    rw [List.mem_singleton.1 hk]
    exact pickMin_legal) _ hx
  refine ⟨Ex.two, _, σ, Ex.two_ok, by decide, h1, ?_, of_decide_eq_true h2⟩
  intro k hk
  rw [List.mem_singleton.1 hk]
  exact fun n => by simp [serTick]

/-! ### C39 -/

/-- C39, partial: the full claim is false (`C39_false`).  How an attempt is counted: as completed iff the
process function assigned a status other than FAILED, or assigned none and no earlier attempt of the
block was counted as failed.  So a retry succeeds only if the process function resets the status. -/
theorem C39_attempt_partial (hg : g.Loose) (h : SerRun g served ks σ) (he : σ.ended = false)
    (hpick : LegalPick k.pick) (hp : σ.pass g served k = .ok σ') :
    ∃ new, σ'.out = σ.out ++ new ∧ ∀ n s, .release n s ∈ new →
      (s = .success ↔ (∃ s', k.proc n = .set s' ∧ s' ≠ .failed) ∨
        (k.proc n = .keep ∧ .release n .failed ∉ σ.out)) ∧ (s = .success ∨ s = .failed) := by
  have hi := h.inv hg
  rcases pass_cases hg hi he hpick with ⟨σ1, sk, h1, h2⟩ | ⟨sk, m, st, _, _, h1 | h1 | ⟨σ1, h1, h2⟩⟩
  · rw [h1] at hp; cases hp
    refine ⟨sk.map .skip ++ [.exit], by rw [h2.out, List.append_assoc], ?_⟩
    intro n s hx
    simp at hx
  · rw [h1.2] at hp; cases hp
  · rw [h1.2.2] at hp; cases hp
  · rw [h1] at hp; cases hp
    obtain ⟨s, d, e, h3, h4, h5, h6⟩ := h2.out
    refine ⟨_, by rw [h3]; simp only [List.append_assoc]; rfl, ?_⟩
    intro n s' hx
    have : n = m ∧ s' = σ.statusAfter m (k.proc m) := by
      rw [h4, h5, h6] at hx
      simp only [List.mem_append, List.mem_map] at hx
      rcases hx with ⟨y, hy, he⟩ | hx | hx | hx | hx
      · cases he
      · split at hx <;> simp at hx
      · simpa using hx
      · split at hx <;> simp at hx
      · split at hx <;> simp at hx
    obtain ⟨rfl, rfl⟩ := this
    refine ⟨?_, (statusAfter_cases σ n (k.proc n)).symm⟩
    have hm := hi.marked n
    rw [mem_bad] at hm
    rw [← hm]
    have hret := h2.returns
    unfold Serial.statusAfter
    rcases hpn : k.proc n with _ | s0 | _
    · simp
    · by_cases hs0 : s0 = .failed
      · simp [hs0]
      · simp [hs0]
    · exact absurd hpn hret

/-- Hence with process functions that only ever mark failures, as the documentation suggests, a block
that failed once is never completed, whatever `max_retries` is. -/
theorem C39_never_recovers (hg : g.Loose) (h : SerRun g served ks σ)
    (hk : ∀ k ∈ ks, ∀ n, k.proc n = .keep ∨ k.proc n = .set .failed ∨ k.proc n = .raises) (n : N)
    (hn : .release n .failed ∈ σ.out) : .release n .success ∉ σ.out := by
  induction h with
  | init => simp [Serial.init] at hn
  | @pass ks σ σ' k h he hpick hp ih =>
    have ih := ih (fun k hk' => hk k (List.mem_append_left _ hk'))
    obtain ⟨new, h1, h2⟩ := C39_attempt_partial hg h he hpick hp
    have hkk := hk k (by simp)
    have hsucc : .release n .success ∈ new → .release n .failed ∉ σ.out := by
      intro hm
      rcases (h2 n _ hm).1.1 rfl with ⟨s', h3, h4⟩ | h3
      · rcases hkk n with h5 | h5 | h5 <;> rw [h5] at h3 <;> cases h3
        exact absurd rfl h4
      · exact h3.2
    rw [h1, List.mem_append] at hn ⊢
    rintro (h3 | h3)
    · rcases hn with h4 | h4
      · exact ih h4 h3
      · -- a block that has succeeded is not handed out again
        have hi := h.inv hg
        have hi' := (SerRun.pass h he hpick hp).inv hg
        have h5 : .good n ∈ serEvs σ.out := (mem_good _ _).2 h3
        have h6 : .bad n ∈ serEvs new := (mem_bad _ _).2 h4
        have hev : serEvs σ'.out = serEvs σ.out ++ serEvs new := by rw [h1, serEvs_append]
        obtain ⟨p, q, hpq⟩ := List.append_of_mem h6
        have hl := (loose_legal hg hi'.run)
        have h7 : Held (serEvs σ.out ++ p) n := hl (serEvs σ.out ++ p) (.bad n) q (by
          rw [hev, hpq, List.append_assoc])
        have h9 : Ev.hand n ∈ p := by
          by_contra hc
          have h10 := hi.idle n
          unfold Held at h7 h10
          rw [List.count_append, List.count_append, List.count_append, List.count_eq_zero.2 hc] at h7
          omega
        obtain ⟨p1, p2, hp12⟩ := List.append_of_mem h9
        have h11 := (C17_loose_partial hg hi'.run (pre := serEvs σ.out ++ p1)
          (post := p2 ++ .bad n :: q) (n := n) (Or.inl (by rw [hev, hpq, hp12]; simp))).2.1
        exact h11 (done_mono (Or.inl h5))
    · rcases hn with h4 | h4
      · exact hsucc h3 h4
      · have e1 := (h2 n _ h3).1.1 rfl
        have e2 := (h2 n _ h4).1.2 e1
        cases e2

/-- C39 is false: the first attempt of the only block is marked FAILED, its retry is not, and yet the
block ends up failed. -/
theorem C39_false : ∃ (g : DGraph (Fin 1) (Fin 1) (Fin 1)) (k1 k2 : SerTick (Fin 1) (Fin 1))
    (σ : Serial (Fin 1) (Fin 1) (Fin 1)), g.OK ∧ g.maxRetries 0 = 1 ∧ SerRun g [0] [k1, k2] σ ∧
    k1.proc 0 = .set .failed ∧ k2.proc 0 = .keep ∧ σ.out.count (.call 0) = 2 ∧ σ.ended = true ∧
    Dead g (serEvs σ.out) 0 ∧ (σ.sched.states 0).failed = 1 ∧ (σ.sched.states 0).completed = 0 := by
  let g : DGraph (Fin 1) (Fin 1) (Fin 1) := finGraph 1 1 (fun _ => []) (fun _ => 0) (fun _ => 1) [0]
  have hx : (serExec g [0] [serTick pickMin [] [0], serTick pickMin]).map
      (fun σ => decide (σ.out.count (.call 0) = 2 ∧ σ.ended = true ∧
        Dead g (serEvs σ.out) 0 ∧ (σ.sched.states 0).failed = 1 ∧ (σ.sched.states 0).completed = 0)) =
      some true := by decide +kernel
  obtain ⟨σ, h1, h2⟩ := serExec_run (by
    intro k hk
    rcases List.mem_cons.1 hk with rfl | hk
    · exact pickMin_legal
    · rw [List.mem_singleton.1 hk]
      exact pickMin_legal) _ hx
  exact ⟨g, _, _, σ, finGraph_ok (by decide) (by decide) (by decide) (by decide), rfl, h1, rfl, rfl,
    of_decide_eq_true h2⟩

/-! ### C56: failing blocks -/

/-- C56, partial: where orphans are counted exactly, a pass raises only if a process function raises. -/
theorem C56_never_raises_partial (hg : g.Loose) (hs : ∀ t ∈ g.tasks, t ∈ served)
    (h : SerRun g served ks σ) (hx : OrphanExact g (serEvs σ.out)) (he : σ.ended = false)
    (hpick : LegalPick k.pick) (hk : SerTick.Returns k) : ∃ σ', σ.pass g served k = .ok σ' :=
  pass_ok hg h hs hx he hpick hk

/-- C56, the number of passes: for any functions, the loop makes at most one pass more than the number
of attempts that `max_retries` allows for all blocks together. -/
theorem C56_bounded (hg : g.Loose) (h : SerRun g served ks σ) :
    ks.length ≤ (g.nodes.map (fun n => (g.maxRetries (g.task n)).toNat + 1)).sum + 1 := by
  have h1 := passes_le hg h
  rw [hands_by_node hg (h.inv hg).run] at h1
  have h2 := sum_map_le g.nodes (fun n => (serEvs σ.out).count (.hand n))
    (fun n => (g.maxRetries (g.task n)).toNat + 1) (fun n => ((h.inv hg).run.facts hg).hands n)
  split at h1 <;> omega

/-- C56, partial: if no block has more than two direct upstream blocks and no process function raises,
the loop ends. -/
theorem C56_returns_partial (hg : g.Loose) (hs : ∀ t ∈ g.tasks, t ∈ served)
    (hx : ∀ n ∈ g.nodes, (g.up n).length ≤ 2) (tick : Nat → SerTick N T)
    (hpick : ∀ i, LegalPick (tick i).pick) (hk : ∀ i, SerTick.Returns (tick i)) :
    ∃ m σ, SerRun g served ((List.range m).map tick) σ ∧ σ.ended = true := by
  obtain ⟨m, σ, _, h⟩ := returns_of (g := g) (served := served) tick
    ((g.nodes.map (fun n => (g.maxRetries (g.task n)).toNat + 1)).sum + 1) hpick
    (fun m σ h he => pass_ok hg h hs (exact_of_two hx) he (hpick m) (hk m))
    (fun m σ h => by simpa using C56_bounded hg h)
  exact ⟨m, σ, h⟩

/-- C56, partial: without check functions, where orphans are counted exactly, when `run_blockwise`
returns every block has completed, has failed more often than `max_retries` allows, or is downstream
of such a block; and all tasks are done. -/
theorem C56_finished_partial (hg : g.OK) (hs : ∀ t ∈ g.tasks, t ∈ served) (h : SerRun g served ks σ)
    (hx : OrphanExact g (serEvs σ.out)) (hk : ∀ k ∈ ks, SerTick.NoSkips k) (hend : σ.ended = true) :
    (∀ n ∈ g.nodes, .release n .success ∈ σ.out ∨
      (g.maxRetries (g.task n) < (serEvs σ.out).count (.bad n) ∧ .release n .failed ∈ σ.out) ∨
      ∃ f, Anc g f n ∧ g.maxRetries (g.task f) < (serEvs σ.out).count (.bad f) ∧
        .release f .failed ∈ σ.out) ∧
    (∀ t ∈ g.tasks, (σ.sched.states t).isDone = true) := by
  have hi := h.inv hg
  have hskip := no_skip hg h hk
  have hfin : ∀ n ∈ g.nodes, Done (serEvs σ.out) n ∨ Dead g (serEvs σ.out) n ∨
      Orphan g (serEvs σ.out) n := by
    intro n hn
    rcases hi.ended hend with h1 | h1
    · exact hi.fin hx _ (h1 _ (hs _ (hg.task_mem n hn))) n hn rfl
    · exact finished_of_idle hg (fun n hn => not_starved hg n (h1 (fun x hx => absurd hx (hskip x)) n hn)) hi.idle n hn
  refine ⟨?_, ?_⟩
  · intro n hn
    rcases hfin n hn with h1 | h1 | ⟨f, h1, h2⟩
    · exact Or.inl ((mem_good _ _).1 (h1.resolve_right (hskip n)))
    · exact Or.inr (Or.inl ⟨h1.2, (mem_bad _ _).1 h1.1⟩)
    · exact Or.inr (Or.inr ⟨f, h2, h1.2, (mem_bad _ _).1 h1.1⟩)
  · intro t _
    rw [C22_loose_is_done_partial hg hi.run hx]
    exact fun n hn _ => hfin n hn

/-- Block 0 of `vee` fails twice and block 2 is orphaned. -/
example : Ex.vee.OK ∧ (∀ n ∈ Ex.vee.nodes, (Ex.vee.up n).length ≤ 2) ∧ ∃ ks σ, SerRun Ex.vee [1, 0] ks σ ∧
    (∀ k ∈ ks, SerTick.NoSkips k) ∧ σ.ended = true ∧ (serEvs σ.out).count (.bad 0) = 2 ∧
    .call 2 ∉ σ.out ∧ .release 3 .success ∈ σ.out := by
  refine ⟨Ex.vee_ok, by decide, ?_⟩
  have hx : (serExec Ex.vee [1, 0] (List.replicate 4 (serTick pickMin [] [0]))).map
      (fun σ => decide (σ.ended = true ∧ (serEvs σ.out).count (.bad 0) = 2 ∧
        .call 2 ∉ σ.out ∧ .release 3 .success ∈ σ.out)) = some true := by decide +kernel
  obtain ⟨σ, h1, h2⟩ := serExec_run (by
    intro k hk
    rw [List.eq_of_mem_replicate hk]
    exact pickMin_legal) _ hx
  refine ⟨_, σ, h1, ?_, of_decide_eq_true h2⟩
  intro k hk
  rw [List.eq_of_mem_replicate hk]
  exact fun t i n => by simp [serTick]

namespace Ex

/-- Block 6 depends on 0, 1 and 4; 1 and 4 fail. -/
def ser7 : DGraph (Fin 7) (Fin 1) (Fin 7) :=
  finGraph 7 1 (fun n => match n with | 3 => [0] | 4 => [2] | 5 => [2] | 6 => [0, 1, 4] | _ => [])
    (fun _ => 0) (fun _ => 0) [0]

/-- The same with a second task. -/
def ser8 : DGraph (Fin 8) (Fin 2) (Fin 8) :=
  finGraph 8 2 (fun n => match n with | 3 => [0] | 4 => [2] | 5 => [2] | 6 => [0, 1, 4] | 7 => [3] | _ => [])
    (fun n => if n = 7 then 1 else 0) (fun _ => 0) [0]

end Ex

/-- C56 is false: block 6 is orphaned twice, the task is taken to be done, and `run_blockwise` returns
although block 5 is ready. -/
theorem C56_false_early : ∃ (g : DGraph (Fin 7) (Fin 1) (Fin 7)) (ks : List (SerTick (Fin 7) (Fin 1)))
    (σ : Serial (Fin 7) (Fin 1) (Fin 7)), g.OK ∧ SerRun g [0] ks σ ∧
    (∀ k ∈ ks, SerTick.Returns k ∧ SerTick.NoSkips k) ∧ σ.ended = true ∧
    Ready g (serEvs σ.out) 5 ∧ .taskDone 0 ∈ σ.out := by
  have hx : (serExec Ex.ser7 [0] (List.replicate 5 (serTick pickMin [] [1, 4]))).map
      (fun σ => decide (σ.ended = true ∧ Ready Ex.ser7 (serEvs σ.out) 5 ∧ .taskDone 0 ∈ σ.out)) =
      some true := by decide +kernel
  obtain ⟨σ, h1, h2⟩ := serExec_run (by
    intro k hk
    rw [List.eq_of_mem_replicate hk]
    exact pickMin_legal) _ hx
  refine ⟨Ex.ser7, _, σ, finGraph_ok (by decide) (by decide) (by decide) (by decide), h1, ?_,
    of_decide_eq_true h2⟩
  intro k hk
  rw [List.eq_of_mem_replicate hk]
  refine ⟨fun n => ?_, fun t i n => by simp [serTick]⟩
  simp only [serTick]
  split <;> simp

/-- C56 is false: with a second task the loop goes on after the first one has been taken to be done,
and looking up the process function for the next block raises `KeyError`. -/
theorem C56_false_raises : ∃ (g : DGraph (Fin 8) (Fin 2) (Fin 8)) (ks : List (SerTick (Fin 8) (Fin 2)))
    (σ : Serial (Fin 8) (Fin 2) (Fin 8)) (k : SerTick (Fin 8) (Fin 2)), g.OK ∧
    (∀ t ∈ g.tasks, t ∈ [(1 : Fin 2), 0]) ∧ SerRun g [1, 0] ks σ ∧
    (∀ k' ∈ ks, SerTick.Returns k' ∧ SerTick.NoSkips k') ∧ SerTick.Succeeds k ∧ SerTick.NoSkips k ∧
    σ.ended = false ∧ σ.pass g [1, 0] k = .error .keyError := by
  have hx : (serExec Ex.ser8 [1, 0] (List.replicate 5 (serTick pickMin [] [1, 4]))).map
      (fun σ => (σ.ended, (σ.pass Ex.ser8 [1, 0] (serTick pickMin)).map (fun _ => ()))) =
      some (false, .error .keyError) := by decide +kernel
  obtain ⟨σ, h1, h2, h3⟩ := serExec_raises (by
    intro k hk
    rw [List.eq_of_mem_replicate hk]
    exact pickMin_legal) hx
  refine ⟨Ex.ser8, _, σ, _, finGraph_ok (by decide) (by decide) (by decide) (by decide), by decide, h1, ?_,
    fun n => by simp [serTick], fun t i n => by simp [serTick], h2, h3⟩
  intro k hk
  rw [List.eq_of_mem_replicate hk]
  refine ⟨fun n => ?_, fun t i n => by simp [serTick]⟩
  simp only [serTick]
  split <;> simp

end Verif
