import Verif.Proofs.ByIdRun
import Verif.Props.PlainFailures

/-! # C119: user code changes the block it is given

`Block` has public attributes, `process_function` gets the object that will be sent back, and blocks are compared by their
ids.  What the server gets in a `ReleaseBlock` message is the block as user code left it; `release_block` passes it to the
ready surface, and queues it again if it failed. -/

namespace Verif.Props

open Verif Spec Pipeline ById

section
variable {N T K : Type} [DecidableEq N] [DecidableEq T] [DecidableEq K] {ig : IdGraph N T K} {tr : List (Ev N)}
  {st : Sched N T K}

/-- C119 for changes that the dependency graph does not see.  Every execution is, up to the ids, an execution without
changes, with the same counters, so that C15-C26 carry over.  Partial: `C119_false_raises`, `C119_false_stall`,
`C119_false_displaced`, `C119_false_single_stall` are about other changes. -/
theorem C119_run_partial (hg : ig.g.OK) (ht : Total ig)
    (h : IdRun ig (fun n' => ∃ n ∈ ig.g.nodes, Unseen ig n' n) tr st) :
    ∃ tr0 st0, Run ig.g tr0 st0 ∧ tr.map (evKey ig.g.key) = tr0.map (evKey ig.g.key) ∧
      (∀ n' n, (Ev.hand n', Ev.hand n) ∈ tr.zip tr0 → n' = n ∨ Unseen ig n' n) ∧ st.states = st0.states := by
  obtain ⟨tr0, st0, h1, h2, h3⟩ := run_sim (R := fun n' n => n' = n ∨ Unseen ig n' n) (fun _ => .inl rfl) hg ht
    (fun n' hn => by
      obtain ⟨n, a, b⟩ := hn
      exact ⟨n, a, b, .inr b⟩) h
  refine ⟨tr0, st0, h1, map_evKey h3, ?_, h2.states⟩
  clear h1 h2 h
  induction h3 with
  | nil => intro _ _ hm; cases hm
  | cons h _ ih =>
    intro n' n hm
    rcases List.mem_cons.1 hm with e | hm
    · cases e
      exact h.2.2
    · exact ih n' n hm

/-- If nothing is changed then it makes no difference that blocks are compared by their ids. -/
theorem C119_identity (hg : ig.g.OK) (ht : Total ig) (h : IdRun ig (· ∈ ig.g.nodes) tr st) :
    ∃ st0, Run ig.g tr st0 ∧ st.states = st0.states ∧
      ∀ t, (st.queues t).readyQueue = (st0.queues t).readyQueue ∧ (st.queues t).processing = (st0.queues t).processing ∧
        (st.queues t).retries = (st0.queues t).retries := by
  obtain ⟨tr0, st0, h1, h2, h3⟩ := run_sim (R := fun n' n => n' = n) (fun _ => rfl) hg ht
    (fun n' hn => ⟨n', hn, ⟨rfl, rfl, rfl, rfl⟩, rfl⟩) h
  have e : ∀ {l' l : List N}, List.Forall₂ (VerR ig (fun n' n => n' = n)) l' l → l' = l := by
    intro l' l hl
    induction hl with
    | nil => rfl
    | cons h _ ih => rw [h.2, ih]
  have e2 : tr = tr0 := by
    clear h1 h2 h
    induction h3 with
    | nil => rfl
    | @cons a b _ _ h _ ih =>
      have h4 := h.1
      have h5 : a.node = b.node := h.2.2
      rw [ih]
      congr 1
      cases a <;> cases b <;> first | (cases h4; done) | (simp only [Ev.node] at h5; rw [h5])
  subst e2
  exact ⟨st0, h1, h2.states, fun t => ⟨e (h2.queues t).readyQueue, (h2.queues t).processing, (h2.queues t).retries⟩⟩

/-- The parts of the claim that hold for changes which the graph does not see.  Partial: what is handed out has the ids of a
block of the graph, but may be a changed object (`C119_retry`). -/
theorem C119_unseen_partial (hg : ig.g.OK) (ht : Total ig)
    (h : IdRun ig (fun n' => ∃ n ∈ ig.g.nodes, Unseen ig n' n) tr st) :
    (∀ n, (.hand n ∈ tr ∨ .skip n ∈ tr) → ∃ m ∈ ig.g.nodes, n = m ∨ Unseen ig n m) ∧
    (∀ n' n, n ∈ ig.g.nodes → Unseen ig n' n → Held (tr.map (evKey ig.g.key)) (ig.g.key n') → ∀ pick, LegalPick pick →
      (∃ st', ById.releaseBlock ig pick st n' .success = .ok st') ∧
      (∃ st', ById.releaseBlock ig pick st n' .failed = .ok st')) ∧
    (st.getReadyTasks ig.g = [] → (∀ n ∈ ig.g.nodes, ¬ Held (tr.map (evKey ig.g.key)) (ig.g.key n)) →
      (∀ n, .bad n ∉ tr) → ∀ n ∈ ig.g.nodes, Done (tr.map (evKey ig.g.key)) (ig.g.key n)) := by
  obtain ⟨tr0, st0, h1, h2, h3⟩ := run_sim (R := fun n' n => n' = n ∨ Unseen ig n' n) (fun _ => .inl rfl) hg ht
    (fun n' hn => by
      obtain ⟨n, a, b⟩ := hn
      exact ⟨n, a, b, .inr b⟩) h
  have hk := map_evKey h3
  have hnode := (h1.inv hg).node
  have hev : ∀ e ∈ tr, ∃ e0 ∈ tr0, EvSim ig (fun n' n => n' = n ∨ Unseen ig n' n) e e0 := by
    intro e he
    clear h1 h2 hk hnode h
    induction h3 with
    | nil => cases he
    | cons h _ ih =>
      rcases List.mem_cons.1 he with rfl | he
      · exact ⟨_, List.mem_cons_self, h⟩
      · obtain ⟨e0, a, b⟩ := ih he
        exact ⟨e0, List.mem_cons_of_mem _ a, b⟩
  refine ⟨?_, ?_, ?_⟩
  · rintro n (hn | hn) <;>
    · obtain ⟨e0, a, b⟩ := hev _ hn
      exact ⟨e0.node, hnode e0 a, b.2.2⟩
  · intro n' n hn hu hh pick hp
    have hheld : Held tr0 n := (held_key hg hnode hn).1 (by rw [← hk, ← hu.key]; exact hh)
    obtain ⟨⟨s1, g1⟩, s2, g2⟩ := (C24_never_raises_partial hg h1).2 pick n hp hheld
    have hv : VerR ig (fun n' n => n' = n ∨ Unseen ig n' n) n' n := ⟨unseen_ver ht hn hu, .inr hu⟩
    have r1 := release_sim (fun _ => .inl rfl) hg ht h2 hv .success (pick' := pick) (pick := pick) (.inr rfl)
    have r2 := release_sim (fun _ => .inl rfl) hg ht h2 hv .failed (pick' := pick) (pick := pick) (.inr rfl)
    rw [g1] at r1
    rw [g2] at r2
    constructor
    · rcases hz : ById.releaseBlock ig pick st n' .success with e | x
      · rw [hz] at r1; exact r1.elim
      · exact ⟨x, rfl⟩
    · rcases hz : ById.releaseBlock ig pick st n' .failed with e | x
      · rw [hz] at r2; exact r2.elim
      · exact ⟨x, rfl⟩
  · intro hr hh hb n hn
    have hr0 : st0.getReadyTasks ig.g = [] := by
      unfold Sched.getReadyTasks at hr ⊢
      rw [← h2.states]
      exact hr
    have hh0 : ∀ m, ¬ Held tr0 m := by
      intro m hm
      have hmem : m ∈ ig.g.nodes := by
        have : Ev.hand m ∈ tr0 := by
          by_contra hc
          unfold Held at hm
          rw [List.count_eq_zero_of_not_mem hc] at hm
          omega
        exact hnode _ this
      exact hh m hmem (by rw [hk]; exact (held_key hg hnode hmem).2 hm)
    have hb0 : ∀ m, Ev.bad m ∉ tr0 := by
      intro m hm
      have h4 : Ev.bad (ig.g.key m) ∈ tr.map (evKey ig.g.key) := by
        rw [hk]
        exact List.mem_map.2 ⟨_, hm, rfl⟩
      obtain ⟨e, he, h5⟩ := List.mem_map.1 h4
      cases e with
      | bad x => exact hb x he
      | skip x => cases h5
      | hand x => cases h5
      | good x => cases h5
    have hd := ((C23_result_partial hg h1 hr0 hh0 (good := fun _ => True)
      ⟨fun _ _ => trivial, fun m hm => absurd hm.1 (hb0 m)⟩ hn).1).2 ⟨trivial, fun _ _ => trivial⟩
    rw [hk]
    rcases hd with hd | hd
    · exact .inl (List.mem_map.2 ⟨_, hd, rfl⟩)
    · exact .inr (List.mem_map.2 ⟨_, hd, rfl⟩)

/-- A block that failed and is to be tried again is queued as it was sent back, with all changes. -/
theorem C119_retry (pick : Nat → Finset N → N) {n : N}
    (hp : ig.g.key n ∈ (st.queues (ig.g.task n)).processing)
    (hr : (st.queues (ig.g.task n)).retries (ig.g.key n) < ig.g.maxRetries (ig.g.task n)) :
    ∃ st', ById.releaseBlock ig pick st n .failed = .ok st' ∧
      (st'.queues (ig.g.task n)).readyQueue = (st.queues (ig.g.task n)).readyQueue ++ [n] := by
  unfold ById.releaseBlock Sched.removeFromProcessing
  rw [if_pos hp]
  simp only
  rw [if_neg]
  · refine ⟨_, rfl, ?_⟩
    unfold Sched.queueReadyBlock
    simp [Sched.modQueue, Sched.modState, upd]
  · simp [Sched.modQueue, Sched.modState, upd]
    exact hr

end

/-! ### Pipelines -/

section
variable {d : Nat} {p : Pipeline d}

theorem levelOf_offset (g : BGraph d) {b b' : Block d} (h : b'.readRoi.offset = b.readRoi.offset) :
    g.levelOf b' = g.levelOf b := by
  unfold BGraph.levelOf BGraph.blockOffset
  rw [h]

theorem shifted_offset (g : BGraph d) {b b' : Block d} (h : b'.readRoi.offset = b.readRoi.offset)
    (hw : b'.writeRoi.offset = b.writeRoi.offset) : g.shifted b' = g.shifted b := by
  funext c
  unfold BGraph.shifted
  rw [h, hw]

/-- The graph looks at the offsets of both ROIs; at the shape of the read ROI only if the task depends on other tasks, and
at the shape of the write ROI only if other tasks depend on it. -/
theorem C119_offsets {b b' : Block d} (hid : b'.blockId = b.blockId) (hr : b'.readRoi.offset = b.readRoi.offset)
    (hw : b'.writeRoi.offset = b.writeRoi.offset) (hu : p.tg.ups b.taskId = [] ∨ b'.readRoi = b.readRoi)
    (hd : p.tg.downs b.taskId = [] ∨ b'.writeRoi = b.writeRoi) : Unseen p.idGraph b' b := by
  have ht : b'.taskId = b.taskId := congrArg Prod.fst hid
  refine ⟨hid, ht, ?_, ?_⟩
  · change p.upstream b' = p.upstream b
    unfold Pipeline.upstream
    rw [ht]
    rcases hg : p.graphOf b.taskId with e | g
    · rfl
    · have h1 : g.upstream b' = g.upstream b := by
        unfold BGraph.upstream
        rw [levelOf_offset g hr, shifted_offset g hr hw]
      simp only [bind, Except.bind]
      rw [h1]
      rcases hu with hu | hu
      · rw [hu]
        rfl
      · rw [hu]
  · change p.downstream b' = p.downstream b
    unfold Pipeline.downstream
    rw [ht]
    rcases hg : p.graphOf b.taskId with e | g
    · rfl
    · have h1 : g.downstream b' = g.downstream b := by
        unfold BGraph.downstream
        rw [levelOf_offset g hr, shifted_offset g hr hw]
      simp only [bind, Except.bind]
      rw [h1]
      rcases hd with hd | hd
      · rw [hd]
        rfl
      · rw [hd]

/-- `upstream` and `downstream` do not raise for the blocks of plain tasks. -/
theorem idGraph_total {tasks r : List (Task d)} (h : PlainTasks tasks) (hb : Builds tasks r p) : Total p.idGraph := by
  intro b hn
  obtain ⟨x, hx⟩ := hb.of_nodes h hn
  obtain ⟨⟨us, h1⟩, ⟨ds, h2⟩, _⟩ := C09_closed hb.init (hb.unique h) (hb.wf h) hx
  refine ⟨?_, ?_⟩
  · change p.upstream b = .ok (okOr (p.upstream b) [])
    rw [h1]
    rfl
  · change p.downstream b = .ok (okOr (p.downstream b) [])
    rw [h2]
    rfl

/-- What user code may change in a block: the shape of the read ROI if the task depends on no other task, and the shape of
the write ROI if no other task depends on it. -/
def ShapesOnly (p : Pipeline d) (b' : Block d) : Prop :=
  ∃ b ∈ p.view.nodes, b'.blockId = b.blockId ∧ b'.readRoi.offset = b.readRoi.offset ∧
    b'.writeRoi.offset = b.writeRoi.offset ∧ (p.tg.ups b.taskId = [] ∨ b'.readRoi = b.readRoi) ∧
    (p.tg.downs b.taskId = [] ∨ b'.writeRoi = b.writeRoi)

instance (p : Pipeline d) : DecidablePred (ShapesOnly p) := fun _ => by unfold ShapesOnly; infer_instance

theorem shapesOnly_unseen {b' : Block d} (h : ShapesOnly p b') : ∃ b ∈ p.idGraph.g.nodes, Unseen p.idGraph b' b := by
  obtain ⟨b, h1, h2, h3, h4, h5, h6⟩ := h
  exact ⟨b, h1, C119_offsets h2 h3 h4 h5 h6⟩

/-- C119 for plain tasks: with such changes the execution is, up to the ids, one without changes.  Partial: the offsets have
to stay, see `C119_raises` and `C119_false_displaced`; and what is tried again has the changed ROIs (`C119_retry`). -/
theorem C119_shapes_partial {tasks r : List (Task d)} (h0 : PlainTasks tasks) (hb : Builds tasks r p)
    {tr : List (Ev (Block d))} {st : Sched (Block d) Nat (Nat × Int)} (h : IdRun p.idGraph (ShapesOnly p) tr st) :
    (∃ tr0 st0, Run p.view tr0 st0 ∧ tr.map (evKey Block.blockId) = tr0.map (evKey Block.blockId) ∧
      st.states = st0.states) ∧
    (∀ b', ShapesOnly p b' → Held (tr.map (evKey Block.blockId)) b'.blockId → ∀ pick, LegalPick pick →
      (∃ st', ById.releaseBlock p.idGraph pick st b' .success = .ok st') ∧
      (∃ st', ById.releaseBlock p.idGraph pick st b' .failed = .ok st')) ∧
    (st.getReadyTasks p.view = [] → (∀ n ∈ p.view.nodes, ¬ Held (tr.map (evKey Block.blockId)) n.blockId) →
      (∀ n, .bad n ∉ tr) → ∀ n ∈ p.view.nodes, Done (tr.map (evKey Block.blockId)) n.blockId) := by
  have hm := h.mono (fun b' hb' => shapesOnly_unseen hb')
  obtain ⟨tr0, st0, a, b, _, c⟩ := C119_run_partial (ig := p.idGraph) (hb.ok h0) (idGraph_total h0 hb) hm
  obtain ⟨_, e, f⟩ := C119_unseen_partial (ig := p.idGraph) (hb.ok h0) (idGraph_total h0 hb) hm
  refine ⟨⟨tr0, st0, a, b, c⟩, ?_, f⟩
  intro b' hb' hh pick hp
  obtain ⟨n, hn, hu⟩ := shapesOnly_unseen hb'
  exact e b' n hn hu hh pick hp

/-- `_level` raises if the offset of the read ROI is not a multiple of the write shape. -/
theorem C119_level_raises (g : BGraph d) (h : g.Wf) {b : Block d} {i : Fin d}
    (hi : ¬ g.blockWrite.shape.get i ∣ b.readRoi.offset.get i - g.totalRead.offset.get i) :
    g.levelOf b = .error .notImplemented := by
  unfold BGraph.levelOf
  simp only
  have : g.levelOffsets.findIdx? (fun o => decide ((g.blockOffset b).mod g.levelStride = o)) = none := by
    rw [List.findIdx?_eq_none_iff]
    intro lo hlo
    rw [decide_eq_false_iff_not]
    intro he
    have h1 := (g.mem_levelOffsets h lo).1 hlo i
    have hs := g.s_pos_of_level h hlo i
    rw [← he, Coord.get_mod] at h1
    have h2 : g.w i ∣ ((g.blockOffset b).get i).fmod (g.s i) := h1.2.2
    rw [Axis.fmod_eq hs, Int.emod_def] at h2
    have h3 : g.w i ∣ (g.blockOffset b).get i :=
      (Int.dvd_iff_dvd_of_dvd_sub (by simpa using (Dvd.dvd.mul_right (g.strideOK h i).dvd _))).1 h2
    apply hi
    have h4 : (g.blockOffset b).get i = b.readRoi.offset.get i - g.totalRead.offset.get i := by
      unfold BGraph.blockOffset
      simp
    rw [← h4]
    exact h3
  rw [this]

/-- If user code moves the read ROI by something else than a multiple of the write shape, then `release_block` raises
NotImplementedError, in the server. -/
theorem C119_raises {tasks r : List (Task d)} (h0 : PlainTasks tasks) (hb : Builds tasks r p)
    {tr : List (Ev (Block d))} {st : Sched (Block d) Nat (Nat × Int)}
    (h : IdRun p.idGraph (fun n' => ∃ n ∈ p.view.nodes, Unseen p.idGraph n' n) tr st) {b b' : Block d}
    (hn : b ∈ p.view.nodes) (hid : b'.blockId = b.blockId)
    (hh : Held (tr.map (evKey Block.blockId)) b.blockId) {g : BGraph d} (hg : p.graphs b.taskId = some g) {i : Fin d}
    (hi : ¬ g.blockWrite.shape.get i ∣ b'.readRoi.offset.get i - g.totalRead.offset.get i)
    (pick : Nat → Finset (Block d) → Block d) :
    ById.releaseBlock p.idGraph pick st b' .success = .error .notImplemented := by
  have hok := hb.ok h0
  have htot := idGraph_total h0 hb
  have ht : b'.taskId = b.taskId := congrArg Prod.fst hid
  obtain ⟨tr0, st0, h1, h2, h3⟩ := run_sim (ig := p.idGraph) (R := fun _ _ => True) (fun _ => trivial) hok htot
    (fun n' hn => by
      obtain ⟨n, a, c⟩ := hn
      exact ⟨n, a, c, trivial⟩) h
  have hheld : Held tr0 b := (held_key (ig := p.idGraph) hok (h1.inv hok).node hn).1 (by rw [← map_evKey h3]; exact hh)
  obtain ⟨⟨s1, g1⟩, _⟩ := (C24_never_raises_partial hok h1).2 (anyPick b) b (anyPick_legal b) hheld
  have hproc : b.blockId ∈ (st.queues b.taskId).processing := by
    rw [(h2.queues _).processing]
    by_contra hc
    change ¬ p.view.key b ∈ (st0.queues (p.view.task b)).processing at hc
    unfold Sched.releaseBlock Sched.removeFromProcessing at g1
    rw [if_neg hc] at g1
    cases g1
  have hup : p.idGraph.up b' = .error .notImplemented := by
    change p.upstream b' = _
    unfold Pipeline.upstream Pipeline.graphOf
    rw [ht, hg]
    simp only [bind, Except.bind]
    unfold BGraph.upstream
    rw [C119_level_raises g ((hb.wf h0) _ _ hg).1 hi]
    rfl
  unfold ById.releaseBlock Sched.removeFromProcessing
  rw [if_pos (by
    change b'.blockId ∈ (st.queues b'.taskId).processing
    rw [hid, ht]
    exact hproc)]
  simp only
  unfold ById.markSuccess
  rw [hup]

end

/-! ### What goes wrong -/

namespace Ex.Fail

open Verif.Ex Verif.Ex.Fail

/-- Three blocks of three voxels with a context of one voxel; the middle one has to be done first. -/
def trim : Task 1 := task1 0 (r1 0 11) (r1 0 5) (r1 1 4) true .valid []

theorem trim_single : PlainSingle (pipe [trim]) :=
  single1 rfl ⟨by decide, by decide, by decide, by decide, Or.inl (by decide), by decide⟩ (by rfl) (by rfl) (by rfl)

/-- One block of two voxels, and a second task that reads each of them. -/
def cut0 : Task 1 := task1 0 (r1 0 2) (r1 0 2) (r1 0 2) false .valid []
def cut1 : Task 1 := task1 1 (r1 0 2) (r1 0 1) (r1 0 1) false .valid [cut0]

/-- What `run_blockwise([cut1])` makes of it. -/
def cutPipe : Pipeline 1 := pipe [cut1, cut0]

theorem cut_pipe : PlainPipe cutPipe [1, 0] := by
  refine ⟨[cut1], [cut1, cut0], plain_of (L := [cut0, cut1]) (by simp)
    (by simp [cut0, cut1, task1, TTree.requires]) (by simp [cut0, cut1, task1, TTree.id]) ?_, ⟨by rfl, by rfl, by rfl⟩, rfl⟩
  intro t ht
  simp only [List.mem_cons, List.not_mem_nil, or_false] at ht
  rcases ht with rfl | rfl
  · exact ⟨⟨⟨by decide, by decide, by decide, by decide, Or.inl (by decide), by decide⟩, fun h => absurd rfl h⟩,
      fun h => absurd rfl h⟩
  · exact ⟨⟨⟨by decide, by decide, by decide, by decide, Or.inl (by decide), by decide⟩,
      fun _ => by unfold TaskInfo.Symmetric; decide⟩,
      fun _ => ⟨cut0, List.mem_singleton.2 rfl, within_of (by decide), Or.inr (by unfold TaskInfo.Divides; decide)⟩⟩

end Ex.Fail

open Verif.Ex Verif.Ex.Fail Ex.Fail

/-- The write ROI of the only block was cropped to nothing and the block failed: it is handed out again like this. -/
theorem C119_false_retry : ∃ p : Pipeline 1, PlainSingle p ∧ ∃ tr st b, IdRun p.idGraph (SameIds p.idGraph) tr st ∧
    (∀ e ∈ tr, e.node.readRoi = b.readRoi) ∧ .hand b ∈ tr ∧ b ∉ p.view.nodes ∧ b.writeRoi.shape.toList = [0] := by
  have hx : (idExec (pipe [twice]).idGraph (SameIds (pipe [twice]).idGraph) (anyPick (blk1 0 0 1 0 1 0)) [.acq 0 [], .bad (blk1 0 0 1 0 0 0),
      .acq 0 []]).map (fun r => decide ((∀ e ∈ r.1, e.node.readRoi = r1 0 1) ∧ .hand (blk1 0 0 1 0 0 0) ∈ r.1 ∧
      blk1 0 0 1 0 0 0 ∉ (pipe [twice]).view.nodes)) = some true := by decide +kernel
  obtain ⟨tr, st, h, e⟩ := idExec_map (anyPick_legal _) _ hx
  obtain ⟨e1, e2, e3⟩ := of_decide_eq_true e
  exact ⟨_, twice_single, tr, st, blk1 0 0 1 0 0 0, h, e1, e2, e3, by decide⟩

/-- The read ROI of the first block was cropped at the left, and it is given back: the server gets an exception. -/
theorem C119_false_raises : ∃ p : Pipeline 1, PlainSingle p ∧ ∃ tr st b b', IdRun p.idGraph (SameIds p.idGraph) tr st ∧
    tr = [.hand b] ∧ b ∈ p.view.nodes ∧ b'.blockId = b.blockId ∧ b'.writeRoi = b.writeRoi ∧
    Within b'.readRoi b.readRoi ∧
    ∀ pick, ById.releaseBlock p.idGraph pick st b' .success = .error .notImplemented ∧
      ById.releaseBlock p.idGraph pick st b' .failed = .error .notImplemented := by
  have hx : (idExec (pipe [trim]).idGraph (SameIds (pipe [trim]).idGraph) (anyPick (blk1 0 3 8 4 7 1)) [.acq 0 []]).map (fun r => decide (
      r.1 = [.hand (blk1 0 3 8 4 7 1)] ∧ (r.2.queues 0).processing = {((0 : Nat), (1 : Int))} ∧
      (r.2.queues 0).retries (0, 1) = 0)) = some true := by decide +kernel
  obtain ⟨tr, st, h, e⟩ := idExec_map (anyPick_legal _) _ hx
  obtain ⟨e1, e2, e3⟩ := of_decide_eq_true e
  refine ⟨_, trim_single, tr, st, blk1 0 3 8 4 7 1, blk1 0 4 8 4 7 1, h, e1, by decide +kernel, rfl, rfl,
    within_of (by decide), fun pick => ?_⟩
  have hproc : (pipe [trim]).idGraph.g.key (blk1 0 4 8 4 7 1) ∈
      (st.queues ((pipe [trim]).idGraph.g.task (blk1 0 4 8 4 7 1))).processing := by
    change ((0 : Nat), (1 : Int)) ∈ (st.queues 0).processing
    rw [e2]
    exact Finset.mem_singleton_self _
  have hup : (pipe [trim]).idGraph.up (blk1 0 4 8 4 7 1) = .error .notImplemented := by decide +kernel
  unfold ById.releaseBlock Sched.removeFromProcessing ById.markSuccess ById.markFailure
  rw [if_pos hproc, hup]
  refine ⟨rfl, ?_⟩
  simp only
  rw [if_pos]
  have : (st.queues ((pipe [trim]).idGraph.g.task (blk1 0 4 8 4 7 1))).retries
      ((pipe [trim]).idGraph.g.key (blk1 0 4 8 4 7 1)) = 0 := e3
  simp [Sched.modQueue, Sched.modState, upd, this]
  decide +kernel

/-- The write ROI of the first block was cropped at the left.  Its left neighbour is then handed out with a write ROI that
is displaced, and its right neighbour never: no block has failed, nobody holds a block, and nothing is ready. -/
theorem C119_false_displaced : ∃ p : Pipeline 1, PlainSingle p ∧ ∃ tr st b b' c n,
    IdRun p.idGraph (SameIds p.idGraph) tr st ∧ tr = [.hand b, .good b', .hand c, .good c] ∧
    b ∈ p.view.nodes ∧ b'.readRoi = b.readRoi ∧ Within b'.writeRoi b.writeRoi ∧
    c ∉ p.view.nodes ∧ (∀ m ∈ p.view.nodes, c.writeRoi ≠ m.writeRoi) ∧
    n ∈ p.view.nodes ∧ (∀ e ∈ tr, e.node.blockId ≠ n.blockId) ∧
    st.getReadyTasks p.view = [] ∧ (st.states 0).isDone = false ∧ (st.states 0).pending = 1 := by
  have hx : (idExec (pipe [trim]).idGraph (SameIds (pipe [trim]).idGraph) (anyPick (blk1 0 3 8 4 7 1)) [.acq 0 [], .good (blk1 0 3 8 5 7 1), .acq 0 [],
      .good (blk1 0 0 5 2 5 0), .acq 0 []]).map (fun r => decide (
      r.1 = [.hand (blk1 0 3 8 4 7 1), .good (blk1 0 3 8 5 7 1), .hand (blk1 0 0 5 2 5 0), .good (blk1 0 0 5 2 5 0)] ∧
      (∀ e ∈ r.1, e.node.blockId ≠ (0, 2)) ∧
      r.2.getReadyTasks (pipe [trim]).view = [] ∧ (r.2.states 0).isDone = false ∧ (r.2.states 0).pending = 1)) =
      some true := by decide +kernel
  obtain ⟨tr, st, h, e⟩ := idExec_map (anyPick_legal _) _ hx
  obtain ⟨e1, e2, e3, e4, e5⟩ := of_decide_eq_true e
  exact ⟨_, trim_single, tr, st, blk1 0 3 8 4 7 1, blk1 0 3 8 5 7 1, blk1 0 0 5 2 5 0, blk1 0 6 11 7 10 2, h, e1,
    by decide +kernel, rfl, within_of (by decide), by decide +kernel, by decide +kernel, by decide +kernel, e2, e3, e4, e5⟩

/-- The write ROI of the block of the first task was cropped at the right.  The second block of the second task never becomes
ready, although no block has failed. -/
theorem C119_false_stall : ∃ (p : Pipeline 1) (served : List Nat), PlainPipe p served ∧ ∃ tr st b b' n,
    IdRun p.idGraph (SameIds p.idGraph) tr st ∧ .hand b ∈ tr ∧ .good b' ∈ tr ∧
    b ∈ p.view.nodes ∧ b'.blockId = b.blockId ∧ b'.readRoi = b.readRoi ∧ b'.writeRoi.offset = b.writeRoi.offset ∧
    Within b'.writeRoi b.writeRoi ∧ (∀ e ∈ tr, e.node = b' ∨ e.node ∈ p.view.nodes) ∧ (∀ m, .bad m ∉ tr) ∧
    n ∈ p.view.nodes ∧ p.view.up n = [b] ∧ (∀ e ∈ tr, e.node.blockId ≠ n.blockId) ∧
    (∀ m ∈ p.view.nodes, ¬ Held (tr.map (evKey Block.blockId)) m.blockId) ∧
    st.getReadyTasks p.view = [] ∧ (st.states 1).isDone = false := by
  have hx : (idExec cutPipe.idGraph (SameIds cutPipe.idGraph) (anyPick (blk1 0 0 2 0 2 0)) [.acq 0 [], .good (blk1 0 0 2 0 1 0), .acq 1 [],
      .good (blk1 1 0 1 0 1 0), .acq 1 []]).map (fun r => decide (
      r.1 = [.hand (blk1 0 0 2 0 2 0), .good (blk1 0 0 2 0 1 0), .hand (blk1 1 0 1 0 1 0), .good (blk1 1 0 1 0 1 0)] ∧
      r.2.getReadyTasks cutPipe.view = [] ∧ (r.2.states 1).isDone = false)) =
      some true := by decide +kernel
  obtain ⟨tr, st, h, e⟩ := idExec_map (anyPick_legal _) _ hx
  obtain ⟨e1, e2, e3⟩ := of_decide_eq_true e
  subst e1
  exact ⟨_, _, cut_pipe, _, st, blk1 0 0 2 0 2 0, blk1 0 0 2 0 1 0, blk1 1 1 2 1 2 1, h, by decide, by decide,
    by decide +kernel, rfl, rfl, rfl, within_of (by decide), by decide +kernel, by simp, by decide +kernel,
    by decide +kernel, by decide +kernel, by decide +kernel, e2, e3⟩

/-- C119 is false, already for single tasks. -/
theorem C119_false : ¬ ∀ p : Pipeline 1, PlainSingle p → ChangesHarmless p.idGraph := by
  intro hc
  obtain ⟨p, h1, tr, st, b, h2, _, h3, h4, _⟩ := C119_false_retry
  exact h4 ((hc p h1 tr st h2).1 b (.inl h3))

/-- The hypotheses of `C119_run_partial`, `C119_unseen_partial` and `C119_shapes_partial` are met by an execution in which
the ROIs of the middle block are made smaller and the other blocks are changed too. -/
example : ∃ tr st b', PlainSingle (pipe [trim]) ∧ IdRun (pipe [trim]).idGraph (ShapesOnly (pipe [trim])) tr st ∧
    .good b' ∈ tr ∧ b' ∉ (pipe [trim]).view.nodes ∧ (st.states 0).isDone = true ∧ (st.states 0).completed = 3 := by
  have hx : (idExec (pipe [trim]).idGraph (ShapesOnly (pipe [trim])) (anyPick (blk1 0 3 8 4 7 1)) [.acq 0 [],
      .good (blk1 0 3 5 4 5 1), .acq 0 [], .good (blk1 0 0 20 1 1 0), .acq 0 [], .good (blk1 0 6 11 7 10 2)]).map
      (fun r => decide (.good (blk1 0 3 5 4 5 1) ∈ r.1 ∧ (r.2.states 0).isDone = true ∧ (r.2.states 0).completed = 3)) =
      some true := by decide +kernel
  obtain ⟨tr, st, h, e⟩ := idExec_map (anyPick_legal _) _ hx
  obtain ⟨e1, e2, e3⟩ := of_decide_eq_true e
  exact ⟨tr, st, _, trim_single, h, e1, by decide +kernel, e2, e3⟩

/-- The hypotheses of `C119_identity` are met. -/
example : ∃ tr st, (pipe [trim]).idGraph.g.OK ∧ IdRun (pipe [trim]).idGraph (· ∈ (pipe [trim]).idGraph.g.nodes) tr st ∧
    tr.length = 6 := by
  have hx : (idExec (pipe [trim]).idGraph (· ∈ (pipe [trim]).idGraph.g.nodes) (anyPick (blk1 0 3 8 4 7 1)) [.acq 0 [],
      .good (blk1 0 3 8 4 7 1), .acq 0 [], .good (blk1 0 0 5 1 4 0), .acq 0 [], .bad (blk1 0 6 11 7 10 2)]).map
      (fun r => decide (r.1.length = 6)) = some true := by decide +kernel
  obtain ⟨tr, st, h, e⟩ := idExec_map (anyPick_legal _) _ hx
  exact ⟨tr, st, trim_single.ok, h, of_decide_eq_true e⟩

/-- `C119_offsets`: a crop at the right of the block of the second task, which reads from the first. -/
example : Unseen cutPipe.idGraph (blk1 1 1 2 1 1 1) (blk1 1 1 2 1 2 1) :=
  C119_offsets rfl rfl rfl (.inr rfl) (.inl (by decide +kernel))

/-- `C119_raises`: the read ROI of the middle block is moved by one voxel. -/
example : ∃ g i, (pipe [trim]).graphs 0 = some g ∧
    ¬ g.blockWrite.shape.get i ∣ (blk1 0 4 8 4 7 1).readRoi.offset.get i - g.totalRead.offset.get i :=
  ⟨_, ⟨0, by decide⟩, rfl, by decide⟩

end Verif.Props
