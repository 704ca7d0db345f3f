import Verif.Proofs.Depth
import Verif.Proofs.Rounds
import Verif.Props.Plain

/-! # C114: with enough workers the number of rounds does not depend on the size of the volume

The blocks of a task that wait for each other form chains whose length is bounded by the context, in units of the
write shape.  The rounds of a pipeline add up along its tasks. -/

namespace Verif.Props

open Verif Spec Pipeline

variable {d : Nat}

/-! ## One task -/

/-- A chain of blocks, each upstream of the next, has at most as many blocks as a cube of one block and the
neighbours that its context reaches on one side; the size of the total ROI does not matter. -/
theorem C114_chain (g : BGraph d) (h : g.Wf) (hr : g.ReadOK) {bs : List (Block d)} (hbs : g.blocks = .ok bs)
    {k : Fin d → Nat} (hk : Reaches g k) {l : List (Block d)} (hl : l.IsChain (Up g)) (hm : ∀ b ∈ l, b ∈ bs) :
    l.length ≤ cube k := by
  refine chain_length (S := (· ∈ bs)) (f := fun b => okOr (g.levelOf b) 0) ?_ ?_ l hl hm
  · intro a b _ hb hab
    obtain ⟨o, ho, rfl⟩ := (g.mem_blocks h hbs b).1 hb
    obtain ⟨p, hp, rfl, hlt⟩ := before_grid g h hr ho (Relation.TransGen.single hab)
    simpa only [g.levelOf_blk h hr ho, g.levelOf_blk h hr hp, okOr] using hlt
  · intro b hb
    obtain ⟨o, ho, rfl⟩ := (g.mem_blocks h hbs b).1 hb
    simpa only [g.levelOf_blk h hr ho, okOr] using lt_of_lt_of_le (g.lvl_lt h ho) (g.numLevels_le h hk)

/-- If the context is at most a write shape wide, chains have at most `2 ^ d` blocks. -/
theorem C114_neighbours (g : BGraph d) (h : g.Wf) (hr : g.ReadOK) {bs : List (Block d)} (hbs : g.blocks = .ok bs)
    (hk : ∀ i, g.cl i ≤ g.w i ∧ g.cu i ≤ g.w i) {l : List (Block d)} (hl : l.IsChain (Up g)) (hm : ∀ b ∈ l, b ∈ bs) :
    l.length ≤ 2 ^ d := by
  have := C114_chain g h hr hbs (k := fun _ => 1) (fun i => by simpa using hk i) hl hm
  simpa [cube] using this

theorem window_zero (g : BGraph d) (h : g.Wf) {k : Fin d → Nat} (hk : Spec.Reaches g k)
    (ht : ∀ i, (k i + 1) * g.w i ≤ g.t i) : g.Window (Vec.const d 0) := by
  refine ⟨fun i => by simp, fun i => by simp, fun i => ?_⟩
  have h1 := (g.stride_le h hk i).trans (ht i)
  have hw := h.wpos i
  rw [Vec.get_const]
  by_cases hf : g.fit = .valid
  · have := g.u_valid hf i; omega
  · have := g.u_other hf i; omega

/-- The bound is sharp: if the total write ROI has room for such a cube, there is a chain of this length. -/
theorem C114_sharp (g : BGraph d) (h : g.Wf) (hc : g.conflict = true) {bs : List (Block d)} (hbs : g.blocks = .ok bs)
    {k : Fin d → Nat} (hk : ReachesExactly g k) (ht : ∀ i, (k i + 1) * g.w i ≤ g.t i) :
    ∃ l : List (Block d), l.IsChain (Up g) ∧ (∀ b ∈ l, b ∈ bs) ∧ l.length = cube k := by
  have hr := g.readOK_of_conflict h hc
  obtain ⟨l, l1, l2, l3⟩ := g.level_chain h hc (window_zero g h hk.1 ht)
  refine ⟨l.map g.blk, ?_, ?_, ?_⟩
  · rw [List.isChain_map]
    refine (List.isChain_iff_getElem.2 fun i hi => ?_)
    have hd := List.isChain_iff_getElem.1 l3 i hi
    exact (up_iff g h hr (l2 _ (List.getElem_mem _)).1 (l2 _ (List.getElem_mem _)).1).2 hd
  · intro b hb
    obtain ⟨o, ho, rfl⟩ := List.mem_map.1 hb
    exact (g.mem_blocks h hbs _).2 ⟨o, (l2 o ho).1, rfl⟩
  · rw [List.length_map, l1, g.numLevels_big h hc hk ht]

/-- With the same context on both sides, daisy needs no more rounds than it must: whoever distributes the blocks over
`m` rounds such that no block reads what another block of the same round writes needs as many rounds. -/
theorem C114_optimal_partial (g : BGraph d) (h : g.Wf) (hc : g.conflict = true) (hsym : g.Symmetric)
    {bs : List (Block d)} (hbs : g.blocks = .ok bs) {k : Fin d → Nat} (hk : ReachesExactly g k)
    (ht : ∀ i, (k i + 1) * g.w i ≤ g.t i) {m : Nat} (round : Block d → Nat) (hm : ∀ b ∈ bs, round b < m)
    (hfree : ∀ a ∈ bs, ∀ b ∈ bs, a ≠ b → round a = round b → ¬ Overlap a.readRoi b.writeRoi) : cube k ≤ m := by
  have hr := g.readOK_of_conflict h hc
  obtain ⟨l, l1, l2, l3⟩ := g.level_chain h hc (window_zero g h hk.1 ht)
  rw [g.numLevels_big h hc hk ht] at l1
  have hnd : l.Nodup := by
    have : (l.map g.lvl).Nodup := by
      have hch : (l.map g.lvl).IsChain (· < ·) := by
        rw [List.isChain_map]
        exact l3.imp fun a b hab => by have := hab.2.1; omega
      exact (List.isChain_iff_pairwise.1 hch).imp fun hab => Nat.ne_of_lt hab
    exact this.of_map _
  have hmem : ∀ o ∈ l, g.blk o ∈ bs := fun o ho => (g.mem_blocks h hbs _).2 ⟨o, (l2 o ho).1, rfl⟩
  have hinj : (l.map (fun o => round (g.blk o))).Nodup := by
    refine hnd.map_on fun p hp q hq hpq => ?_
    by_contra hne
    refine hfree _ (hmem p hp) _ (hmem q hq) (fun he => hne (g.blk_inj h (g.grid_admissible (l2 p hp).1)
      (g.grid_admissible (l2 q hq).1) he)) hpq ?_
    rw [BGraph.overlap_iff]
    intro i
    have hctx := h.ctx hc
    have rp := g.blk_read h hctx p (g.grid_admissible (l2 p hp).1)
    have wp := g.blk_write h p (g.grid_admissible (l2 p hp).1)
    have wq := g.blk_write h q (g.grid_admissible (l2 q hq).1)
    rw [rp.1, rp.2, wq.1, wq.2, wp.2, g.tw_off h i]
    have hs := hsym i
    have hw := h.wpos i
    have hci := hctx i
    have h1 := (l2 p hp).2 i
    have h2 := (l2 q hq).2 i
    rw [Vec.get_const] at h1 h2
    have gp := (l2 p hp).1 i
    have gq := (l2 q hq).1 i
    have hst := g.stride_le h hk.1 i
    have hti := ht i
    have hpt : p.get i + g.w i ≤ g.t i ∧ q.get i + g.w i ≤ g.t i := by
      obtain ⟨x, hx⟩ := gp.2.2
      obtain ⟨y, hy⟩ := gq.2.2
      have hx1 : x < k i + 1 := lt_of_mul_lt_mul_left (a := g.w i) (by rw [← hx]; linarith) hw.le
      have hy1 : y < k i + 1 := lt_of_mul_lt_mul_left (a := g.w i) (by rw [← hy]; linarith) hw.le
      have hx2 : g.w i * x ≤ g.w i * k i := mul_le_mul_of_nonneg_left (by omega) hw.le
      have hy2 : g.w i * y ≤ g.w i * k i := mul_le_mul_of_nonneg_left (by omega) hw.le
      rw [hx, hy]
      constructor <;> linarith
    have hd : p.get i - q.get i < g.cl i + g.w i ∧ q.get i - p.get i < g.cu i + g.w i := by
      obtain ⟨x, hx⟩ := gp.2.2
      obtain ⟨y, hy⟩ := gq.2.2
      have hx1 : x < k i + 1 := lt_of_mul_lt_mul_left (a := g.w i) (by rw [← hx]; linarith) hw.le
      have hy1 : y < k i + 1 := lt_of_mul_lt_mul_left (a := g.w i) (by rw [← hy]; linarith) hw.le
      have hx0 : 0 ≤ x := by
        by_contra hcon
        have : g.w i * x ≤ g.w i * (-1) := mul_le_mul_of_nonneg_left (by omega) hw.le
        linarith
      have hy0 : 0 ≤ y := by
        by_contra hcon
        have : g.w i * y ≤ g.w i * (-1) := mul_le_mul_of_nonneg_left (by omega) hw.le
        linarith
      have hxy : g.w i * (x - y) ≤ g.w i * k i := mul_le_mul_of_nonneg_left (by omega) hw.le
      have hyx : g.w i * (y - x) ≤ g.w i * k i := mul_le_mul_of_nonneg_left (by omega) hw.le
      rw [mul_sub, ← hx, ← hy] at hxy hyx
      have hki : (k i : Int) * g.w i < g.cl i + g.w i := by
        rcases hk.2 i with h0 | h0 | h0
        · rw [h0]; push_cast; linarith
        · linarith
        · linarith
      constructor <;> linarith
    split
    all_goals omega
  have hlen := (hinj.subperm (l₂ := List.range m) (fun x hx => by
    obtain ⟨o, ho, rfl⟩ := List.mem_map.1 hx
    exact List.mem_range.2 (hm _ (hmem o ho)))).length_le
  rwa [List.length_map, List.length_range, l1] at hlen

/-- Dependencies are local: whatever a block waits for, directly or not, and so also whatever is orphaned in its
task when it fails, is less than `cube k` strides away. -/
theorem C114_local (g : BGraph d) (h : g.Wf) (hr : g.ReadOK) {bs : List (Block d)} (hbs : g.blocks = .ok bs)
    {k : Fin d → Nat} (hk : Reaches g k) {a b : Block d} (hb : b ∈ bs) (hab : Before g a b) (i : Fin d) :
    |a.writeRoi.offset.get i - b.writeRoi.offset.get i| < cube k * ((k i + 1) * g.w i) := by
  obtain ⟨o, ho, rfl⟩ := (g.mem_blocks h hbs b).1 hb
  obtain ⟨p, hp, rfl, hlt, hi⟩ := g.before_close h hr ho hab
  rw [(g.blk_write h o (g.grid_admissible ho)).1 i, (g.blk_write h p (g.grid_admissible hp)).1 i]
  have h1 := hi i
  have h2 := g.stride_le h hk i
  have h3 := lt_of_lt_of_le (g.lvl_lt h ho) (g.numLevels_le h hk)
  have hw := h.wpos i
  have hpos : 0 < ((k i : Int) + 1) * g.w i := by positivity
  have h4 : (g.lvl o - g.lvl p : Int) * g.s i < cube k * ((k i + 1) * g.w i) := by
    calc (g.lvl o - g.lvl p : Int) * g.s i ≤ (g.lvl o - g.lvl p : Int) * ((k i + 1) * g.w i) :=
          mul_le_mul_of_nonneg_left h2 (by omega)
      _ < cube k * ((k i + 1) * g.w i) := mul_lt_mul_of_pos_right (by omega) hpos
  rw [abs_lt]
  constructor <;> linarith [h1.1, h1.2]

/-! ## Pipelines -/

section
variable {N T K : Type} [DecidableEq N] [DecidableEq T] [DecidableEq K] {g : DGraph N T K} {st : Sched N T K}

/-- For every consistent dependency graph: if a function numbers the blocks such that numbers grow along the
dependencies and stay below `m`, there is an execution of `m` rounds in each of which all blocks are with workers at
the same time, and which processes every block once. -/
theorem C114_rounds_graph (hg : g.OK) {f : N → Nat} {m : Nat} (hf : ∀ b ∈ g.nodes, ∀ a ∈ g.up b, f a < f b)
    (hm : ∀ b ∈ g.nodes, f b < m) : ∃ (bs : List (List N)) (st : Sched N T K), bs.length = m ∧
      Run g (bs.flatMap roundOf) st ∧ bs.flatten.Perm g.nodes := by
  obtain ⟨bs, st, h1, h2, h3, h4, h5⟩ := rounds_run hg hf m
  exact ⟨bs, st, h1, h2, (List.perm_ext_iff_of_nodup h3 hg.nodes_nodup).2
    fun x => ⟨h4 x, fun hx => h5 x hx (hm x hx)⟩⟩

/-- And no execution in rounds needs fewer rounds than a chain of dependencies has blocks. -/
theorem C114_needed_graph (hg : g.OK) {bs : List (List N)} (h : Run g (bs.flatMap roundOf) st)
    (hall : ∀ x ∈ g.nodes, x ∈ bs.flatten) {l : List N} (hc : l.IsChain (Edge g)) (hl : ∀ x ∈ l, x ∈ g.nodes) :
    l.length ≤ bs.length :=
  rounds_lower hg h hc (fun x hx => hall x (hl x hx))

end

variable {tasks r : List (Task d)} {p : Pipeline d} (h : PlainTasks tasks) (hb : Builds tasks r p)

include h hb

theorem _root_.Verif.TaskInfo.Reaches.graphs {k : Nat → Fin d → Nat}
    (hk : ∀ t, Required tasks t → t.info.Reaches (k t.id)) {x : Nat} {g : BGraph d} (hg : p.graphs x = some g) :
    Spec.Reaches g (k x) := by
  obtain ⟨t, t1, t2, _, t4⟩ := graphs_init hb.init hg
  have := hk t ((flatten_required h.unique hb.flat t).1 t1)
  subst t2
  unfold taskGraph BGraph.init at t4
  dsimp only at t4
  split at t4
  · cases t4
  · cases t4
    exact this

theorem Builds.begins {k : Nat → Fin d → Nat} {E : Nat → Nat}
    (hE : ∀ t, Required tasks t → ∀ s ∈ t.requires, E s.id + cube (k s.id) ≤ E t.id) :
    ∀ y x, x ∈ p.tg.ups y → E x + cube (k x) ≤ E y := by
  intro y x hx
  have hbt := built_of_init hb.init (hb.unique h)
  have hy := (hbt.1.inv.mem x y hx).2
  rw [hbt.2, C54_all_recorded r (hb.unique h)] at hy
  obtain ⟨t, ht, rfl⟩ := hy
  rw [hbt.2, C54_upstream r (hb.unique h) ht] at hx
  obtain ⟨s, hs, rfl⟩ := hx
  exact hE t ((flatten_required h.unique hb.flat t).1 ht) s hs

theorem Builds.batch_bound {k : Nat → Fin d → Nat} {E : Nat → Nat} {m : Nat}
    (hk : ∀ t, Required tasks t → t.info.Reaches (k t.id))
    (hm : ∀ t, Required tasks t → E t.id + cube (k t.id) ≤ m) {y : Nat} {b : Block d} (hy : p.BlockOf y b) :
    p.batch E b < m := by
  have hbt := built_of_init hb.init (hb.unique h)
  have h1 := lev_lt hbt.1 (hb.wf h) (fun x g hg => TaskInfo.Reaches.graphs h hb hk hg) hy
  have hid := blockOf_taskId hbt.1 (hb.wf h) hy
  have hym : y ∈ p.tg.ids := by
    obtain ⟨g, _, hg, _⟩ := hy
    exact hbt.1.only y g hg
  rw [hbt.2, C54_all_recorded r (hb.unique h)] at hym
  obtain ⟨t, ht, rfl⟩ := hym
  have := hm t ((flatten_required h.unique hb.flat t).1 ht)
  unfold batch
  rw [hid]
  omega

/-- Let task `t` begin with round `E t`, after the rounds of all tasks that it requires, and let no task need more
than `m` rounds in this way.  Then a chain of blocks, of any tasks, each upstream of the next, has at most `m`
blocks. -/
theorem C114_pipeline {k : Nat → Fin d → Nat} {E : Nat → Nat} {m : Nat}
    (hk : ∀ t, Required tasks t → t.info.Reaches (k t.id))
    (hE : ∀ t, Required tasks t → ∀ s ∈ t.requires, E s.id + cube (k s.id) ≤ E t.id)
    (hm : ∀ t, Required tasks t → E t.id + cube (k t.id) ≤ m) {l : List (Block d)} (hl : l.IsChain p.Up)
    (hmem : ∀ b ∈ l, ∃ x, p.BlockOf x b) : l.length ≤ m := by
  refine chain_length (S := fun b => ∃ x, p.BlockOf x b) (f := p.batch E) ?_ ?_ l hl hmem
  · rintro a b _ ⟨y, hy⟩ hab
    exact batch_lt (built_of_init hb.init (hb.unique h)).1 (hb.wf h)
      (fun x g hg => TaskInfo.Reaches.graphs h hb hk hg) (hb.begins h hE) hy hab
  · rintro b ⟨y, hy⟩
    exact hb.batch_bound h hk hm hy

/-- With enough workers a plain pipeline can be processed in `m` rounds: in each of them all blocks are with workers
at the same time, and every block is processed once. -/
theorem C114_rounds {k : Nat → Fin d → Nat} {E : Nat → Nat} {m : Nat}
    (hk : ∀ t, Required tasks t → t.info.Reaches (k t.id))
    (hE : ∀ t, Required tasks t → ∀ s ∈ t.requires, E s.id + cube (k s.id) ≤ E t.id)
    (hm : ∀ t, Required tasks t → E t.id + cube (k t.id) ≤ m) :
    ∃ (bs : List (List (Block d))) (st : Sched (Block d) Nat (Nat × Int)), bs.length = m ∧
      Run p.view (bs.flatMap roundOf) st ∧ bs.flatten.Perm p.view.nodes := by
  refine C114_rounds_graph (hb.ok h) (f := p.batch E) ?_ ?_
  · intro b hbn a ha
    obtain ⟨y, hy⟩ := hb.of_nodes h hbn
    obtain ⟨⟨us, hus⟩, _⟩ := C09_closed hb.init (hb.unique h) (hb.wf h) hy
    have ha' : a ∈ okOr (p.upstream b) [] := ha
    rw [okOr_ok hus] at ha'
    exact batch_lt (built_of_init hb.init (hb.unique h)).1 (hb.wf h)
      (fun x g hg => TaskInfo.Reaches.graphs h hb hk hg) (hb.begins h hE) hy ⟨us, hus, ha'⟩
  · intro b hbn
    obtain ⟨y, hy⟩ := hb.of_nodes h hbn
    exact hb.batch_bound h hk hm hy

/-- In particular as many rounds suffice as all tasks have together, whatever the total ROIs are. -/
theorem C114_rounds_sum {k : Nat → Fin d → Nat} (hk : ∀ t, Required tasks t → t.info.Reaches (k t.id)) :
    ∃ (bs : List (List (Block d))) (st : Sched (Block d) Nat (Nat × Int)),
      bs.length = (p.view.tasks.map (fun x => cube (k x))).sum ∧
      Run p.view (bs.flatMap roundOf) st ∧ bs.flatten.Perm p.view.nodes := by
  have hbt := built_of_init hb.init (hb.unique h)
  obtain ⟨E, h1, h2⟩ := exists_begin hbt.1 (fun x => cube (k x))
  have hreq : ∀ t, Required tasks t → t.id ∈ p.tg.ids := by
    intro t ht
    rw [hbt.2, C54_all_recorded r (hb.unique h)]
    exact ⟨t, (flatten_required h.unique hb.flat t).2 ht, rfl⟩
  refine C114_rounds h hb hk (E := E) ?_ (fun t ht => h2 t.id (hreq t ht))
  intro t ht s hs
  exact h1 _ _ (hb.link h ht hs).2

/-- And fewer do not suffice: every execution in rounds that processes all blocks has at least as many rounds as the
cube of a task with `read_write_conflict` that has room for it. -/
theorem C114_needed {t : Task d} (ht : Required tasks t) (hc : t.info.conflict = true) {g : BGraph d}
    (hg : p.graphs t.id = some g) {k : Fin d → Nat} (hk : ReachesExactly g k) (hroom : ∀ i, (k i + 1) * g.w i ≤ g.t i)
    {bs : List (List (Block d))} {st : Sched (Block d) Nat (Nat × Int)} (hrun : Run p.view (bs.flatMap roundOf) st)
    (hall : ∀ b ∈ p.view.nodes, b ∈ bs.flatten) : cube k ≤ bs.length := by
  obtain ⟨g', cs, hg', htg, hcs⟩ := hb.graph h ht
  rw [hg] at hg'; cases hg'
  have hgc : g.conflict = true := by
    unfold taskGraph BGraph.init at htg
    dsimp only at htg
    split at htg
    · cases htg
    · cases htg
      exact hc
  obtain ⟨l, l1, l2, l3⟩ := C114_sharp g (hb.wf h _ _ hg).1 hgc hcs hk hroom
  rw [← l3]
  have hbt := built_of_init hb.init (hb.unique h)
  have hmem : ∀ b ∈ l, p.BlockOf t.id b := fun b hbl => ⟨g, cs, hg, hcs, l2 b hbl⟩
  refine C114_needed_graph (hb.ok h) hrun hall ?_ (fun b hbl => hb.mem_nodes h (hmem b hbl))
  rw [List.isChain_iff_getElem] at l1 ⊢
  intro i hi
  obtain ⟨us, hus, ha⟩ := l1 i hi
  obtain ⟨g', us', vs, h1, h2, h3, h4⟩ := mem_upstream hbt.1 (hb.wf h) (hmem _ (List.getElem_mem hi))
  rw [hg] at h1; cases h1
  rw [hus] at h2; cases h2
  change l[i] ∈ okOr (p.upstream l[i + 1]) []
  rw [okOr_ok h3]
  exact (h4 _).2 (Or.inl ha)

omit h hb

/-! ## Examples -/

namespace Ex.Depth

/-- Blocks of one voxel that also read their right, upper and upper right neighbours. -/
def corner : BGraph 2 := Ex.mk 0 (Ex.r2 0 2 0 2) (Ex.r2 0 1 0 1) true .valid (Ex.r2 0 5 0 5)

/-- Rounds along the diagonals. -/
def diagonal (b : Block 2) : Nat := ((b.writeRoi.offset.get 0 + b.writeRoi.offset.get 1) % 3).toNat

theorem corner_wf : corner.Wf := by
  refine BGraph.wf_of_init (Ex.mk_init _ _ _ _ _ _ (by decide)) (by decide) ?_
  decide

end Ex.Depth

open Verif.Ex Ex.Depth

/-- With different contexts on the two sides daisy can need more rounds than necessary: here four, where three rounds
would keep conflicting blocks apart. -/
theorem C114_false_optimal : ∃ g : BGraph 2, g.Wf ∧ g.conflict = true ∧ ∃ bs, g.blocks = .ok bs ∧
    (∃ l : List (Block 2), l.IsChain (Up g) ∧ (∀ b ∈ l, b ∈ bs) ∧ l.length = 4) ∧
    ∃ round : Block 2 → Nat, (∀ b ∈ bs, round b < 3) ∧
      ∀ a ∈ bs, ∀ b ∈ bs, a ≠ b → round a = round b → ¬ Overlap a.readRoi b.writeRoi := by
  have hk : ReachesExactly corner (fun _ => 1) :=
    ⟨by unfold Spec.Reaches; decide, by decide⟩
  obtain ⟨bs, hbs⟩ := C05_enumeration_ok corner corner_wf
  refine ⟨corner, corner_wf, rfl, bs, hbs, ?_, diagonal, ?_, ?_⟩
  · obtain ⟨l, h1, h2, h3⟩ := C114_sharp corner corner_wf rfl hbs hk (by decide)
    exact ⟨l, h1, h2, h3.trans (by decide)⟩
  · have : (match corner.blocks with | .ok bs => bs.all (fun b => diagonal b < 3) | .error _ => false) = true := by
      decide +kernel
    rw [hbs] at this
    simpa using this
  · have : (match corner.blocks with
        | .ok bs => bs.all (fun a => bs.all (fun b => decide (a ≠ b → diagonal a = diagonal b →
            ¬ ∀ i, max (a.readRoi.offset.get i) (b.writeRoi.offset.get i) <
              min (a.readRoi.offset.get i + a.readRoi.shape.get i) (b.writeRoi.offset.get i + b.writeRoi.shape.get i))))
        | .error _ => false) = true := by
      decide +kernel
    rw [hbs] at this
    intro a ha b hb'
    rw [BGraph.overlap_iff]
    exact of_decide_eq_true (List.all_eq_true.1 (List.all_eq_true.1 this a ha) b hb')

/-- The hypotheses about one task: context of one block on all sides, four by four blocks. -/
example : ∃ g : BGraph 2, g.Wf ∧ g.conflict = true ∧ g.Symmetric ∧ ReachesExactly g (fun _ => 1) ∧
    (∀ i, ((fun _ => 1 : Fin 2 → Nat) i + 1) * g.w i ≤ g.t i) ∧ cube (fun _ : Fin 2 => 1) = 4 := by
  refine ⟨Ex.mk 0 (Ex.r2 0 3 0 3) (Ex.r2 1 2 1 2) true .valid (Ex.r2 0 6 0 6), ?_, rfl, ?_, ?_, by decide, by decide⟩
  · refine BGraph.wf_of_init (Ex.mk_init _ _ _ _ _ _ (by decide)) (by decide) ?_
    decide
  · unfold BGraph.Symmetric; decide
  · exact ⟨by unfold Spec.Reaches; decide, by decide⟩

/-- A plain pipeline: three stages without context take three rounds. -/
example : ∃ (bs : List (List (Block 1))) (st : Sched (Block 1) Nat (Nat × Int)), bs.length = 3 ∧
    Run (Ex.pipe [stage0, stage1, stage2]).view (bs.flatMap roundOf) st ∧
    bs.flatten.Perm (Ex.pipe [stage0, stage1, stage2]).view.nodes := by
  have hreq : ∀ t, Required [stage0] t → t ∈ [stage0, stage1, stage2] := by
    intro t ht
    have := (C40_flatten_tasks [stage0] stage_plain.unique stage_builds.flat).2 t
    exact this.2 ht
  refine C114_rounds stage_plain stage_builds (k := fun _ _ => 0) (E := fun x => 2 - x) (m := 3) ?_ ?_ ?_
  · intro t ht
    have := hreq t ht
    simp only [List.mem_cons, List.not_mem_nil, or_false] at this
    rcases this with rfl | rfl | rfl <;> (unfold TaskInfo.Reaches; decide)
  · intro t ht s hs
    have := hreq t ht
    simp only [List.mem_cons, List.not_mem_nil, or_false] at this
    rcases this with rfl | rfl | rfl
    · obtain rfl := List.mem_singleton.1 hs; decide
    · obtain rfl := List.mem_singleton.1 hs; decide
    · exact absurd hs List.not_mem_nil
  · intro t ht
    have := hreq t ht
    simp only [List.mem_cons, List.not_mem_nil, or_false] at this
    rcases this with rfl | rfl | rfl <;> decide

/-- The hypotheses of `C114_needed`: the second task has a context of half a block and room for two blocks. -/
example : ∃ g, Builds [shrB] [shrB, shrA] (Ex.pipe [shrB, shrA]) ∧ shrB.info.conflict = true ∧
    (Ex.pipe [shrB, shrA]).graphs shrB.id = some g ∧ ReachesExactly g (fun _ => 1) ∧
    (∀ i, ((fun _ => 1 : Fin 1 → Nat) i + 1) * g.w i ≤ g.t i) ∧ cube (fun _ : Fin 1 => 1) = 2 :=
  ⟨Ex.mk 1 (r1 0 4) (r1 1 3) true .shrink (r1 0 7), ⟨by rfl, by rfl, by rfl⟩, rfl, by rfl,
    ⟨by unfold Spec.Reaches; decide, by decide⟩, by decide, by decide⟩

end Verif.Props
