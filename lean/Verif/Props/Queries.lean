import Verif.Proofs.QueriesRun
import Verif.Proofs.Degrees
import Verif.Props.PlainFailures

/-! # C121: the work of the scheduler per block does not depend on the size of the volume

The scheduler asks the dependency graph for the upstream or the downstream blocks of a block
(`DependencyGraph.upstream`, `.downstream`) whenever a block is released.  These are the only operations of the scheduler
whose cost depends on the geometry.  The claim bounds how often it asks, over a whole run, by a constant for each block;
the constant depends on the number of direct neighbours of blocks, and that depends on the shapes of blocks only. -/

namespace Verif.Props

open Verif Verif.Spec Verif.Counted Verif.Pipeline

section

variable {N T K : Type} [DecidableEq N] [DecidableEq T] [DecidableEq K] {g : DGraph N T K} {tr : List (Ev N)}
  {st : Sched N T K} {o : N → Nat} {q U D : Nat}

/-- C121: counting does not change what is done. -/
theorem C121_same (pick : Nat → Finset N → N) (chk : Nat → N → Check) (st : Sched N T K) (n : N) (t : T)
    (s : BlockStatus) : (Counted.releaseBlock g pick st n s).val = st.releaseBlock g pick n s ∧
      (Counted.acquireBlock g chk st t).val = st.acquireBlock g chk t :=
  ⟨Counted.releaseBlock_val pick st n s, Counted.acquireBlock_val chk st t⟩

/-- C121: the executions with counting are the executions. -/
theorem C121_runs (hg : g.OK) : Run g tr st ↔ ∃ o q, RunAsked g tr st o q := by
  constructor
  · intro h
    induction h with
    | init => exact ⟨_, _, .init⟩
    | acquire chk t h he ih =>
      obtain ⟨o, q, ih⟩ := ih
      rw [← Counted.acquireBlock_val] at he
      exact ⟨_, _, .acquire chk t ih (by rw [← he])⟩
    | good pick h hn hp he ih =>
      obtain ⟨o, q, ih⟩ := ih
      rw [← Counted.releaseBlock_val] at he
      exact ⟨_, _, .good pick ih hn hp (by rw [← he])⟩
    | bad pick h hn hp he ih =>
      obtain ⟨o, q, ih⟩ := ih
      rw [← Counted.releaseBlock_val] at he
      exact ⟨_, _, .bad pick ih hn hp (by rw [← he])⟩
  · rintro ⟨o, q, h⟩
    -- degrees of the finite graph
    have hb : Degrees g ((g.nodes.map fun n => (g.up n).length).sum) ((g.nodes.map fun n => (g.down n).length).sum) :=
      ⟨fun n hn => List.single_le_sum (fun _ _ => Nat.zero_le _) _ (List.mem_map_of_mem hn),
        fun n hn => List.single_le_sum (fun _ _ => Nat.zero_le _) _ (List.mem_map_of_mem hn)⟩
    exact (RunAsked.inv hg hb h).run

/-- C121: the release of a block that was processed asks a bounded number of times. -/
theorem C121_success (hg : g.OK) (hb : Degrees g U D) (h : Run g tr st) {n : N} (hn : Held tr n)
    (pick : Nat → Finset N → N) :
    (Counted.releaseBlock g pick st n .success).asks ≤ 3 + 2 * D + U * (1 + D) := by
  obtain ⟨c, hi⟩ := (h.inv hg).inv
  have hnn := hi.hNode n hn
  have h1 : ∃ st', st.releaseBlock g pick n .success = .ok st' := by
    obtain ⟨st', h1, _⟩ := (h.inv hg).release_good hg hn pick
    exact ⟨st', h1⟩
  obtain ⟨st', h1⟩ := h1
  rw [(release_success h1).2]
  exact markSuccess_asks st.rs n (hb.up n hnn) (hb.down n hnn) fun u hu => hb.down u (hg.up_mem n hnn u hu)

/-- C121: the release of a block that failed asks a bounded number of times, for itself and for each block that becomes
an orphan. -/
theorem C121_failure (hg : g.OK) (hb : Degrees g U D) (h : Run g tr st) {n : N} (hn : Held tr n)
    {pick : Nat → Finset N → N} (hp : LegalPick pick) :
    (Counted.releaseBlock g pick st n .failed).asks ≤
      3 + D + U * (1 + D) + (1 + D) * (st.orphansOf g pick n .failed).card := by
  obtain ⟨c, hi⟩ := (h.inv hg).inv
  have hnn := hi.hNode n hn
  obtain ⟨st', h1, _⟩ := (h.inv hg).release_bad hg hn hp
  by_cases hmax : g.maxRetries (g.task n) ≤ (st.queues (g.task n)).retries (g.key n)
  · obtain ⟨os, e1, e2, e3, e4⟩ := release_dead_asks hmax h1
    rw [e2, e3]
    exact markFailure_asks hg.down_mem hb.down pick hnn (hg.up_mem n hnn) (hb.up n hnn) e1
  · rw [(release_retry_asks hmax).1]
    exact Nat.zero_le _

/-- C121: a block is reported as an orphan at most once for each of its direct upstream blocks, whatever fails, and the
counters of the tasks add up these reports. -/
theorem C121_orphan_counts (hg : g.OK) (h : RunAsked g tr st o q) :
    (∀ m, o m ≤ (g.up m).length) ∧ (∀ m, 0 < o m → m ∈ g.nodes ∧ Orphan g tr m) ∧
    ∀ t, (st.states t).orphaned = (((g.nodes.filter fun m => g.task m = t).map o).sum : Nat) := by
  obtain ⟨hb, -⟩ : Degrees g ((g.nodes.map fun n => (g.up n).length).sum)
      ((g.nodes.map fun n => (g.down n).length).sum) ∧ True :=
    ⟨⟨fun n hn => List.single_le_sum (fun _ _ => Nat.zero_le _) _ (List.mem_map_of_mem hn),
      fun n hn => List.single_le_sum (fun _ _ => Nat.zero_le _) _ (List.mem_map_of_mem hn)⟩, trivial⟩
  have hi := RunAsked.inv hg hb h
  refine ⟨fun m => ?_, hi.orph, fun t => ?_⟩
  · rcases Nat.eq_zero_or_pos (o m) with h0 | h0
    · rw [h0]; exact Nat.zero_le _
    · obtain ⟨hm, f, hf, hfm⟩ := hi.orph m h0
      refine (hi.pot m hm).trans ?_
      obtain ⟨c, hc⟩ := (hi.run.inv hg).inv
      have hex : ∃ u ∈ g.up m, ¬ Done tr u := by
        by_contra hcon
        push Not at hcon
        exact hc.rs.up_s_not_below hcon ⟨f, hf, hfm⟩
      obtain ⟨u, hu, hnd⟩ := hex
      unfold RS.pot
      have h1 : (g.up m).countP (fun u => @decide (Done tr u ∧ u ∉ st.rs.surface) (Classical.propDecidable _)) <
          (g.up m).length := by
        refine lt_of_le_of_ne List.countP_le_length fun he => ?_
        exact hnd (of_dtrue (List.countP_eq_length.1 he u hu)).1
      have h2 : (if m ∈ st.rs.boundary then 1 else 0) ≤ 1 := by split <;> omega
      omega
  · rw [hi.sum t]
    unfold csum
    congr 1
    clear hi hb h
    induction g.nodes with
    | nil => rfl
    | cons x l ih =>
      by_cases ht : g.task x = t
      · simp [ht, ih]
      · simp [ht, ih]

/-- C121: over a whole run, whatever fails, the scheduler asks at most a constant number of times for each block. -/
theorem C121_total (hg : g.OK) (hb : Degrees g U D) (h : RunAsked g tr st o q) :
    q ≤ g.nodes.length * (3 + 2 * D + 2 * (U * (1 + D))) := by
  have hi := RunAsked.inv hg hb h
  have h1 := (C121_orphan_counts hg h).1
  have h2 : (g.nodes.map o).sum ≤ g.nodes.length * U := by
    have : ∀ l : List N, (∀ x ∈ l, x ∈ g.nodes) → (l.map o).sum ≤ l.length * U := by
      intro l
      induction l with
      | nil => intro _; simp
      | cons x l ih =>
        intro hl
        have h3 := ih fun y hy => hl y (List.mem_cons_of_mem _ hy)
        have h4 := (h1 x).trans (hb.up x (hl x List.mem_cons_self))
        rw [List.map_cons, List.sum_cons, List.length_cons, Nat.add_mul]
        omega
    exact this g.nodes fun _ hx => hx
  calc q ≤ (3 + 2 * D + U * (1 + D)) * finished g tr + (1 + D) * (g.nodes.map o).sum := hi.asks
    _ ≤ (3 + 2 * D + U * (1 + D)) * g.nodes.length + (1 + D) * (g.nodes.length * U) :=
        Nat.add_le_add (Nat.mul_le_mul_left _ (finished_le tr)) (Nat.mul_le_mul_left _ h2)
    _ = g.nodes.length * (3 + 2 * D + 2 * (U * (1 + D))) := by ring

/-- C22, how wrong the count can be: an orphan is counted at most once for each of its direct upstream blocks. -/
theorem C22_orphan_count_degree (hg : g.OK) (h : Run g tr st) (t : T) :
    ∃ o : N → Nat, (∀ m, o m ≤ (g.up m).length) ∧ (∀ m, 0 < o m → m ∈ g.nodes ∧ Orphan g tr m) ∧
      (st.states t).orphaned = (((g.nodes.filter fun m => g.task m = t).map o).sum : Nat) := by
  obtain ⟨o, q, h⟩ := (C121_runs hg).1 h
  obtain ⟨h1, h2, h3⟩ := C121_orphan_counts hg h
  exact ⟨o, h1, h2, h3 t⟩

end

section

variable {d : Nat} {tasks r : List (Task d)} {p : Pipeline d}

theorem Builds.shapes (h : PlainTasks tasks) (hb : Builds tasks r p) {x : Nat} {gx : BGraph d}
    (hg : p.graphs x = some gx) : ∃ t, Required tasks t ∧ t.id = x ∧ gx.blockRead.shape = t.info.readRoi.shape ∧
      gx.blockWrite.shape = t.info.writeRoi.shape := by
  obtain ⟨t, t1, t2, _, t4⟩ := graphs_init hb.init hg
  refine ⟨t, (flatten_required h.unique hb.flat t).1 t1, t2, ?_⟩
  unfold taskGraph BGraph.init at t4
  dsimp only at t4
  split at t4
  · cases t4
  · cases t4
    exact ⟨rfl, rfl⟩

/-- C121: in the dependency graph of a plain pipeline the number of direct neighbours of a block is bounded by the shapes
of blocks and the number of tasks.  The total ROIs do not occur in the bound. -/
theorem C121_degrees (h : PlainTasks tasks) (hb : Builds tasks r p) {c : Nat}
    (hup : ∀ t, Required tasks t → ∀ s ∈ t.requires, cellsMet t.info.readRoi.shape s.info.writeRoi.shape ≤ c)
    (hdn : ∀ t, Required tasks t → ∀ s ∈ t.requires,
      cellsMet (s.info.writeRoi.shape + t.info.readRoi.shape - t.info.writeRoi.shape) t.info.writeRoi.shape ≤ c) :
    Degrees p.view (2 ^ d + p.view.tasks.length * c) (2 ^ d + p.view.tasks.length * c) := by
  have hbt := built_of_init hb.init (hb.unique h)
  have hreq : ∀ x y, x ∈ p.tg.ups y → ∀ gx gy, p.graphs x = some gx → p.graphs y = some gy →
      ∃ t s, Required tasks t ∧ s ∈ t.requires ∧ gx.blockRead.shape = s.info.readRoi.shape ∧
        gx.blockWrite.shape = s.info.writeRoi.shape ∧ gy.blockRead.shape = t.info.readRoi.shape ∧
        gy.blockWrite.shape = t.info.writeRoi.shape := by
    intro x y hx gx gy hgx hgy
    obtain ⟨s, s1, s2, s3, s4⟩ := Builds.shapes h hb hgx
    obtain ⟨t, t1, t2, t3, t4⟩ := Builds.shapes h hb hgy
    subst t2
    rw [hbt.2, C54_upstream r (hb.unique h) ((flatten_required h.unique hb.flat t).2 t1)] at hx
    obtain ⟨s', hs', e⟩ := hx
    have : s' = s := h.unique s' s (TaskGraph.required_child t1 hs') s1 (by rw [e, s2])
    subst this
    exact ⟨t, s', t1, hs', s3, s4, t3, t4⟩
  constructor
  · intro b hbm
    obtain ⟨y, hy⟩ := hb.of_nodes h hbm
    have hid : b.taskId = y := blockOf_taskId hbt.1 (hb.wf h) hy
    obtain ⟨gy, bs, hgy, hbs, hmem⟩ := hy
    obtain ⟨ofs, _, rfl⟩ := (gy.mem_blocks (hb.wf h y gy hgy).1 hbs b).1 hmem
    have hsh := fit_shapes gy (gy.raw ofs) rfl rfl
    refine (view_up_len (c := c) ?_).trans (Nat.add_le_add_left (Nat.mul_le_mul_right _ ?_) _)
    · intro x hx gx hgx
      rw [hid] at hx
      obtain ⟨t, s, t1, hs, e1, e2, e3, e4⟩ := hreq x y hx gx gy hgx hgy
      refine (subgraph_len gx (hb.wf h x gx hgx).1.wpos _ false).trans (le_trans ?_ (hup t t1 s hs))
      rw [← e2, ← e3]
      exact cellsMet_mono fun i => (hsh i).1
    · rw [hid]
      exact ((hbt.1.inv.ups_nodup y).subperm fun x hx => (hbt.1.inv.mem _ _ hx).1).length_le
  · intro b hbm
    obtain ⟨x, hx⟩ := hb.of_nodes h hbm
    have hid : b.taskId = x := blockOf_taskId hbt.1 (hb.wf h) hx
    obtain ⟨gx, bs, hgx, hbs, hmem⟩ := hx
    obtain ⟨ofs, _, rfl⟩ := (gx.mem_blocks (hb.wf h x gx hgx).1 hbs b).1 hmem
    have hsh := fit_shapes gx (gx.raw ofs) rfl rfl
    refine (view_down_len (c := c) ?_).trans (Nat.add_le_add_left (Nat.mul_le_mul_right _ ?_) _)
    · intro y hy gy hgy
      rw [hid] at hy
      obtain ⟨t, s, t1, hs, e1, e2, e3, e4⟩ := hreq x y ((hbt.1.inv.dual _ _).1 hy) gx gy hgx hgy
      refine (subgraph_len gy (hb.wf h y gy hgy).1.wpos _ true).trans (le_trans ?_ (hdn t t1 s hs))
      rw [if_pos rfl, ← e2, ← e3, ← e4]
      refine cellsMet_mono fun i => ?_
      have h1 := (hsh i).2
      have h2 := (hb.wf h x gx hgx).1.wpos i
      change 0 < gx.blockWrite.shape.get i at h2
      change ((gx.blk ofs).writeRoi.shape.get i).toNat ≤ _ at h1
      change (((gx.blk ofs).writeRoi.shape + gy.blockRead.shape - gy.blockWrite.shape).get i).toNat ≤ _
      simp only [Coord.get_add, Coord.get_sub]
      omega
    · rw [hid]
      exact ((hbt.1.inv.downs_nodup x).subperm fun y hy => (hbt.1.inv.mem _ _ ((hbt.1.inv.dual _ _).1 hy)).2).length_le

/-- C121 for a plain pipeline: the number of questions per block is bounded by the shapes of blocks and the number of
tasks. -/
theorem C121_pipeline (h : PlainTasks tasks) (hb : Builds tasks r p) {c : Nat}
    (hup : ∀ t, Required tasks t → ∀ s ∈ t.requires, cellsMet t.info.readRoi.shape s.info.writeRoi.shape ≤ c)
    (hdn : ∀ t, Required tasks t → ∀ s ∈ t.requires,
      cellsMet (s.info.writeRoi.shape + t.info.readRoi.shape - t.info.writeRoi.shape) t.info.writeRoi.shape ≤ c)
    {tr : List (Ev (Block d))} {st : Sched (Block d) Nat (Nat × Int)} {o : Block d → Nat} {q k : Nat}
    (hk : 2 ^ d + p.view.tasks.length * c = k) (hrun : RunAsked p.view tr st o q) :
    q ≤ p.view.nodes.length * (3 + 2 * k + 2 * (k * (1 + k))) := by
  subst hk
  exact C121_total (hb.ok h) (C121_degrees h hb hup hdn) hrun

/-- C121 for a single plain task: the bound depends on the number of dimensions only. -/
theorem C121_single (h : Ex.PlainSingle p) {tr : List (Ev (Block d))}
    {st : Sched (Block d) Nat (Nat × Int)} {o : Block d → Nat} {q : Nat} (hrun : RunAsked p.view tr st o q) :
    q ≤ p.view.nodes.length * (3 + 2 * 2 ^ d + 2 * (2 ^ d * (1 + 2 ^ d))) := by
  obtain ⟨t, ht, h1, h2⟩ := h
  have hreq : ∀ s, Required [t] s → s.requires = [] := by
    rintro s ⟨t0, ht0, hs⟩
    rw [List.mem_singleton] at ht0
    subst ht0
    rcases hs.cases_head with e | ⟨u, hu, _⟩
    · rw [← e]; exact ht
    · change u ∈ t0.requires at hu
      rw [ht] at hu; cases hu
  exact C121_pipeline (c := 0) h1 h2 (fun s hs u hu => by rw [hreq s hs] at hu; cases hu)
    (fun s hs u hu => by rw [hreq s hs] at hu; cases hu) (k := 2 ^ d) (by simp) hrun

/-- In three dimensions: at most 163 questions for each block. -/
example {p : Pipeline 3} (h : Ex.PlainSingle p) {tr : List (Ev (Block 3))} {st : Sched (Block 3) Nat (Nat × Int)}
    {o : Block 3 → Nat} {q : Nat} (hrun : RunAsked p.view tr st o q) : q ≤ p.view.nodes.length * 163 :=
  C121_single h hrun

/-- The hypotheses are met by an execution in which blocks fail and an orphan is counted twice. -/
example : ∃ p : Pipeline 2, Ex.PlainSingle p ∧ ∃ tr st o q, RunAsked p.view tr st o q ∧ (st.states 0).orphaned = 10 := by
  obtain ⟨p, hp, tr, st, h, _, _, _, h1, _⟩ := C22_false_single
  obtain ⟨o, q, h2⟩ := (C121_runs hp.ok).1 h
  exact ⟨p, hp, tr, st, o, q, h2, h1⟩

/-- The orphan `4` of the execution `fanTr` has three upstream blocks and is counted twice. -/
example : Degrees Ex.fan 3 2 ∧ ∃ st o q, RunAsked Ex.fan Ex.fanTr st o q ∧ o 4 = 2 := by
  refine ⟨⟨by decide, by decide⟩, ?_⟩
  have hx : (exec Ex.fan pickMin Ex.fanActs).map (fun p => (p.1, (p.2.states 0).orphaned)) = some (Ex.fanTr, 2) := by
    decide +kernel
  obtain ⟨tr, st, h, e⟩ := exec_map pickMin_legal _ hx
  simp only [Prod.mk.injEq] at e
  obtain ⟨rfl, e1⟩ := e
  obtain ⟨o, q, h2⟩ := (C121_runs Ex.fan_ok).1 h
  obtain ⟨h3, _, h4⟩ := C121_orphan_counts Ex.fan_ok h2
  refine ⟨st, o, q, h2, ?_⟩
  have h5 := h4 0
  rw [e1] at h5
  have a0 : o 0 ≤ 0 := h3 0
  have a1 : o 1 ≤ 0 := h3 1
  have a2 : o 2 ≤ 0 := h3 2
  have a3 : o 3 = 0 := by
    by_contra hc
    have := (C121_orphan_counts Ex.fan_ok h2).2.1 3 (by omega)
    exact ((C19_disjoint_partial Ex.fan_ok h 3).2.2.1 (by decide)).2 this.2
  have h6 : (((Ex.fan.nodes.filter fun m => Ex.fan.task m = 0).map o).sum : Nat) =
      o 0 + (o 1 + (o 2 + (o 3 + (o 4 + 0)))) := rfl
  rw [h6] at h5
  omega

/-- Questions in a single call: the release of `0`, which has two downstream blocks.  If it succeeded, the bound of
`C121_success` with no upstream block is met exactly. -/
example : (exec Ex.fan pickMin [.acq 0 []]).map (fun p =>
    ((Counted.releaseBlock Ex.fan pickMin p.2 0 .success).asks,
      (Counted.releaseBlock Ex.fan pickMin p.2 0 .failed).asks)) = some (7, 7) := by decide +kernel

/-- A box of 3 times 12 pixels meets at most 5 times 8 cells of 1 times 2 pixels. -/
example : cellsMet (Vec.ofFn (d := 2) fun i => if i = 0 then 3 else 12) (Vec.ofFn fun i => if i = 0 then 1 else 2) = 40 := by
  decide

end

end Verif.Props
