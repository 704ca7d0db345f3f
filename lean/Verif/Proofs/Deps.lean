import Verif.Proofs.Levels
import Mathlib.Logic.Relation

/-! # In-task dependencies -/

namespace Verif.BGraph

open Verif.Axis Verif.Spec

variable {d : Nat}

theorem levelConflictsAux_get (c : Bool) (st : Coord d) :
    ∀ (l : List (Coord d)) (prev : Option (Coord d)) (k : Nat),
      (levelConflictsAux c st prev l)[k]? =
        (l[k]?).map (fun lo =>
          match (if k = 0 then prev else l[k - 1]?) with
          | some p => if c then getConflictOffsets lo p st else []
          | none => [])
  | [], _, k => by simp [levelConflictsAux]
  | lo :: rest, prev, 0 => by simp [levelConflictsAux]; cases prev <;> rfl
  | lo :: rest, prev, k + 1 => by
    simp only [levelConflictsAux, List.getElem?_cons_succ]
    rw [levelConflictsAux_get c st rest (some lo) k]
    cases k with
    | zero => simp
    | succ k => simp

theorem levelConflicts_zero (g : BGraph d) (h0 : 0 < g.numLevels) :
    g.levelConflicts[0]? = some [] := by
  have h1 : g.levelOffsets[0]? = some g.levelOffsets[0] := List.getElem?_eq_getElem h0
  unfold levelConflicts
  rw [levelConflictsAux_get, h1]
  simp

theorem levelConflicts_noconf (g : BGraph d) (hc : g.conflict = false) {k : Nat}
    (hk : k < g.numLevels) : g.levelConflicts[k]? = some [] := by
  have h1 : g.levelOffsets[k]? = some g.levelOffsets[k] := List.getElem?_eq_getElem hk
  unfold levelConflicts
  rw [levelConflictsAux_get, h1, hc]
  simp only [Option.map_some, Bool.false_eq_true, if_false]
  split <;> rfl

theorem levelConflicts_succ (g : BGraph d) (hc : g.conflict = true) {k : Nat} {lo p : Coord d}
    (hk : g.levelOffsets[k + 1]? = some lo) (hp : g.levelOffsets[k]? = some p) :
    g.levelConflicts[k + 1]? = some (getConflictOffsets lo p g.levelStride) := by
  unfold levelConflicts
  rw [levelConflictsAux_get, hk, hc]
  simp [hp]

theorem mem_getConflictOffsets (g : BGraph d) (h : g.Wf) {lo p c : Coord d}
    (hlo : lo ∈ g.levelOffsets) (hp : p ∈ g.levelOffsets) :
    c ∈ getConflictOffsets lo p g.levelStride ↔
      ∀ i, g.s i ∣ c.get i - (p.get i - lo.get i) ∧ c.get i < g.s i ∧ -g.s i < c.get i := by
  unfold getConflictOffsets
  rw [mem_vecProduct]
  refine forall_congr' fun i => ?_
  have h1 := (g.mem_levelOffsets h lo).1 hlo i
  have h2 := (g.mem_levelOffsets h p).1 hp i
  rw [Vec.get_zipWith, Coord.get_sub]
  unfold getOffsets
  exact (offsets_char (op := p.get i - lo.get i) (ls := g.s i) (c := c.get i)
    (by omega) (by omega)).symm

theorem shifted_blk (g : BGraph d) (h : g.Wf) (hc : g.ReadOK) {o : Coord d} (ho : g.Grid o)
    (c : Coord d) : g.shifted (g.blk o) c = g.raw (o + c) := by
  have h1 := g.blk_read_off h hc o (g.grid_admissible ho)
  have h2 := (g.blk_write h o (g.grid_admissible ho)).1
  unfold shifted raw
  congr 1
  · simp only [Roi.mk.injEq, and_true]
    apply Vec.ext_get; intro i
    simp only [Coord.get_add, h1]
    ring
  · simp only [Roi.mk.injEq, and_true]
    apply Vec.ext_get; intro i
    simp only [Coord.get_add, h2]
    ring

/-- The direct dependency relation between grid offsets: `p` is upstream of `o`. -/
def Dep (g : BGraph d) (p o : Coord d) : Prop :=
  g.conflict = true ∧ g.lvl p + 1 = g.lvl o ∧
    ∀ i, p.get i - o.get i < g.s i ∧ o.get i - p.get i < g.s i

theorem shift_list (g : BGraph d) (h : g.Wf) (hc : g.ReadOK) {o : Coord d} (ho : g.Grid o)
    (cs : List (Coord d)) (f : Coord d → Coord d) (b : Block d) :
    b ∈ (((cs.map (fun c => g.shifted (g.blk o) (f c))).filter g.included).map g.fitBlock).dedup ↔
      ∃ c ∈ cs, (∀ i, 0 ≤ (o + f c).get i ∧ (o + f c).get i < g.u i) ∧ b = g.blk (o + f c) := by
  simp only [List.mem_dedup, List.mem_map, List.mem_filter]
  constructor
  · rintro ⟨b', ⟨⟨c, hcm, rfl⟩, hinc⟩, rfl⟩
    rw [g.shifted_blk h hc ho] at hinc ⊢
    exact ⟨c, hcm, (g.included_raw h _).1 hinc, rfl⟩
  · rintro ⟨c, hcm, hadm, rfl⟩
    refine ⟨g.raw (o + f c), ⟨⟨c, hcm, g.shifted_blk h hc ho _⟩, (g.included_raw h _).2 hadm⟩, rfl⟩

theorem getElem?_of_lt (g : BGraph d) {k : Nat} (hk : k < g.numLevels) :
    ∃ lo, g.levelOffsets[k]? = some lo ∧ lo ∈ g.levelOffsets :=
  ⟨_, List.getElem?_eq_getElem hk, List.getElem_mem _⟩

theorem upstream_spec (g : BGraph d) (h : g.Wf) (hc : g.ReadOK) {o : Coord d} (ho : g.Grid o) :
    ∃ ups, g.upstream (g.blk o) = .ok ups ∧ ups.Nodup ∧
      ∀ b, b ∈ ups ↔ ∃ p, g.Grid p ∧ g.Dep p o ∧ b = g.blk p := by
  have hlt := g.lvl_lt h ho
  unfold upstream
  rw [g.levelOf_blk h hc ho]
  simp only [bind, Except.bind]
  by_cases hconf : g.conflict = true
  · cases hk : g.lvl o with
    | zero =>
      rw [g.levelConflicts_zero (by omega)]
      refine ⟨_, rfl, List.nodup_dedup _, ?_⟩
      intro b
      simp only [List.map_nil, List.filter_nil, List.dedup_nil, List.not_mem_nil, false_iff]
      rintro ⟨p, _, ⟨_, h2, _⟩, _⟩
      omega
    | succ k =>
      obtain ⟨plo, e1, hp⟩ := g.getElem?_of_lt (k := k) (by omega)
      have e2 := g.lvl_get h ho
      rw [hk] at e2
      rw [g.levelConflicts_succ hconf e2 e1]
      refine ⟨_, rfl, List.nodup_dedup _, ?_⟩
      intro b
      rw [g.shift_list h hc ho _ (fun c => c)]
      have hlo := g.residue_level h ho
      have hres := (g.residue_iff h ho hlo).1 rfl
      constructor
      · rintro ⟨c, hcm, hadm, rfl⟩
        rw [g.mem_getConflictOffsets h hlo hp] at hcm
        have hgp : g.Grid (o + c) := by
          intro i
          refine ⟨(hadm i).1, (hadm i).2, ?_⟩
          have a1 := (ho i).2.2
          have a2 := dvd_trans (g.strideOK h i).dvd (hcm i).1
          have a3 := ((g.mem_levelOffsets h _).1 hp i).2.2
          have a4 := ((g.mem_levelOffsets h _).1 hlo i).2.2
          have a5 := dvd_add a2 (dvd_sub a3 a4)
          rw [sub_add_cancel] at a5
          rw [Coord.get_add]
          exact dvd_add a1 a5
        refine ⟨o + c, hgp, ⟨hconf, ?_, ?_⟩, rfl⟩
        · rw [hk]
          congr 1
          rw [g.lvl_eq_iff h hgp e1]
          intro i
          have a1 := (hcm i).1
          have a2 := hres i
          rw [Coord.get_add]
          have : ∀ x y z q : Int, x + y - z = (y - (z - q)) + (x - q) := by intros; ring
          rw [this _ _ _ ((o.mod g.levelStride).get i)]
          exact dvd_add a1 a2
        · intro i
          have a1 := (hcm i).2
          rw [Coord.get_add]
          omega
      · rintro ⟨p, hgp, ⟨_, hlv, hclose⟩, rfl⟩
        have e3 : o + (p - o) = p := by
          apply Vec.ext_get; intro i; simp
        refine ⟨p - o, ?_, ?_, ?_⟩
        · rw [g.mem_getConflictOffsets h hlo hp]
          intro i
          have a1 := (g.lvl_eq_iff h hgp e1).1 (by omega) i
          have a2 := hres i
          have a3 := hclose i
          rw [Coord.get_sub]
          refine ⟨?_, by omega, by omega⟩
          have : ∀ x y z q : Int, y - x - (z - q) = (y - z) - (x - q) := by intros; ring
          rw [this]
          exact dvd_sub a1 a2
        · rw [e3]; exact g.grid_admissible hgp
        · rw [e3]
  · have hconf' : g.conflict = false := by simpa using hconf
    rw [g.levelConflicts_noconf hconf' hlt]
    refine ⟨_, rfl, List.nodup_dedup _, ?_⟩
    intro b
    simp only [List.map_nil, List.filter_nil, List.dedup_nil, List.not_mem_nil, false_iff]
    rintro ⟨p, _, ⟨h2, _⟩, _⟩
    exact hconf h2

theorem downstream_spec (g : BGraph d) (h : g.Wf) (hc : g.ReadOK) {p : Coord d}
    (hgp : g.Grid p) :
    ∃ ds, g.downstream (g.blk p) = .ok ds ∧ ds.Nodup ∧
      ∀ b, b ∈ ds ↔ ∃ o, g.Grid o ∧ g.Dep p o ∧ b = g.blk o := by
  have hlt := g.lvl_lt h hgp
  unfold downstream
  rw [g.levelOf_blk h hc hgp]
  simp only [bind, Except.bind]
  by_cases hlast : g.numLevels ≤ g.lvl p + 1
  · rw [if_pos hlast]
    refine ⟨[], rfl, List.nodup_nil, ?_⟩
    intro b
    simp only [List.not_mem_nil, false_iff]
    rintro ⟨o, hgo, ⟨_, h2, _⟩, _⟩
    have := g.lvl_lt h hgo
    omega
  · rw [if_neg hlast]
    by_cases hconf : g.conflict = true
    · obtain ⟨plo, e1, hp⟩ := g.getElem?_of_lt (k := g.lvl p + 1) (by omega)
      have e2 := g.lvl_get h hgp
      rw [g.levelConflicts_succ hconf e1 e2]
      refine ⟨_, rfl, List.nodup_dedup _, ?_⟩
      intro b
      rw [g.shift_list h hc hgp _ (fun c => -c)]
      have hlo := g.residue_level h hgp
      have hres := (g.residue_iff h hgp hlo).1 rfl
      constructor
      · rintro ⟨c, hcm, hadm, rfl⟩
        rw [g.mem_getConflictOffsets h hp hlo] at hcm
        have hgo : g.Grid (p + -c) := by
          intro i
          refine ⟨(hadm i).1, (hadm i).2, ?_⟩
          have a1 := (hgp i).2.2
          have a2 := dvd_trans (g.strideOK h i).dvd (hcm i).1
          have a3 := ((g.mem_levelOffsets h _).1 hp i).2.2
          have a4 := ((g.mem_levelOffsets h _).1 hlo i).2.2
          have a5 := dvd_add a2 (dvd_sub a4 a3)
          rw [sub_add_cancel] at a5
          rw [Coord.get_add, Coord.get_neg]
          exact dvd_add a1 ((dvd_neg).2 a5)
        refine ⟨p + -c, hgo, ⟨hconf, ?_, ?_⟩, rfl⟩
        · symm
          rw [g.lvl_eq_iff h hgo e1]
          intro i
          have a1 := (hcm i).1
          have a2 := hres i
          rw [Coord.get_add, Coord.get_neg]
          have : ∀ x y z q : Int, x + -y - z = (x - q) - (y - (q - z)) := by intros; ring
          rw [this _ _ _ ((p.mod g.levelStride).get i)]
          exact dvd_sub a2 a1
        · intro i
          have a1 := (hcm i).2
          rw [Coord.get_add, Coord.get_neg]
          omega
      · rintro ⟨o, hgo, ⟨_, hlv, hclose⟩, rfl⟩
        have e3 : p + -(p - o) = o := by
          apply Vec.ext_get; intro i; simp
        refine ⟨p - o, ?_, ?_, ?_⟩
        · rw [g.mem_getConflictOffsets h hp hlo]
          intro i
          have a1 := (g.lvl_eq_iff h hgo e1).1 (by omega) i
          have a2 := hres i
          have a3 := hclose i
          rw [Coord.get_sub]
          refine ⟨?_, by omega, by omega⟩
          have : ∀ x y z q : Int, y - x - (z - q) = (y - z) - (x - q) := by intros; ring
          rw [this]
          exact dvd_sub a2 a1
        · rw [e3]; exact g.grid_admissible hgo
        · rw [e3]
    · have hconf' : g.conflict = false := by simpa using hconf
      rw [g.levelConflicts_noconf hconf' (by omega)]
      refine ⟨_, rfl, List.nodup_dedup _, ?_⟩
      intro b
      simp only [List.map_nil, List.filter_nil, List.dedup_nil, List.not_mem_nil, false_iff]
      rintro ⟨p, _, ⟨h2, _⟩, _⟩
      exact hconf h2

/-- The block of level `k` in the window starting at `a`. -/
def winBlock (g : BGraph d) (a lo : Coord d) : Coord d :=
  Vec.ofFn (fun i => rep (a.get i) (g.s i) (lo.get i))

/-- Window data: a box of one stride in which every level has exactly one admissible block. -/
structure Window (g : BGraph d) (a : Coord d) : Prop where
  dvd : ∀ i, g.w i ∣ a.get i
  nonneg : ∀ i, 0 ≤ a.get i
  fits : ∀ i, a.get i + g.s i - g.w i < g.u i

theorem exists_window (g : BGraph d) (h : g.Wf) {p q : Coord d} (hp : g.Grid p) (hq : g.Grid q)
    (hclose : ∀ i, p.get i - q.get i < g.s i ∧ q.get i - p.get i < g.s i) :
    ∃ a, g.Window a ∧ (∀ i, a.get i ≤ p.get i ∧ p.get i < a.get i + g.s i) ∧
      ∀ i, a.get i ≤ q.get i ∧ q.get i < a.get i + g.s i := by
  have : ∀ i, ∃ a, g.w i ∣ a ∧ 0 ≤ a ∧ a + g.s i - g.w i < g.u i ∧ a ≤ p.get i ∧
      p.get i < a + g.s i ∧ a ≤ q.get i ∧ q.get i < a + g.s i := fun i =>
    window (g.strideOK h i) (hp i).1 (hp i).2.1 (hp i).2.2 (hq i).1 (hq i).2.1 (hq i).2.2
      (hclose i).1 (hclose i).2
  choose f hf using this
  refine ⟨Vec.ofFn f, ⟨?_, ?_, ?_⟩, ?_, ?_⟩ <;> intro i <;> rw [Vec.get_ofFn]
  · exact (hf i).1
  · exact (hf i).2.1
  · exact (hf i).2.2.1
  · exact ⟨(hf i).2.2.2.1, (hf i).2.2.2.2.1⟩
  · exact ⟨(hf i).2.2.2.2.2.1, (hf i).2.2.2.2.2.2⟩

theorem winBlock_grid (g : BGraph d) (h : g.Wf) {a lo : Coord d} (ha : g.Window a)
    (hlo : lo ∈ g.levelOffsets) : g.Grid (g.winBlock a lo) := by
  intro i
  have hs := g.s_pos_of_level h hlo i
  have hl := (g.mem_levelOffsets h lo).1 hlo i
  have ok := g.strideOK h i
  have hu : 0 < g.u i := by
    have h1 := ha.fits i
    have h2 := ha.nonneg i
    have h3 := Int.le_of_dvd hs ok.dvd
    omega
  unfold winBlock
  rw [Vec.get_ofFn]
  exact rep_admissible ok hu (ha.dvd i) (ha.nonneg i) (ha.fits i) hl.2.2

theorem winBlock_lvl (g : BGraph d) (h : g.Wf) {a lo : Coord d} {k : Nat} (ha : g.Window a)
    (hk : g.levelOffsets[k]? = some lo) : g.lvl (g.winBlock a lo) = k := by
  have hlo : lo ∈ g.levelOffsets := List.mem_of_getElem? hk
  rw [g.lvl_eq_iff h (g.winBlock_grid h ha hlo) hk]
  intro i
  unfold winBlock
  rw [Vec.get_ofFn]
  exact (rep_spec (g.s_pos_of_level h hlo i)).2.2

theorem winBlock_eq (g : BGraph d) (h : g.Wf) {a p : Coord d} (hp : g.Grid p)
    (hin : ∀ i, a.get i ≤ p.get i ∧ p.get i < a.get i + g.s i) :
    g.winBlock a (p.mod g.levelStride) = p := by
  apply Vec.ext_get; intro i
  unfold winBlock
  rw [Vec.get_ofFn]
  have hlo := g.residue_level h hp
  exact rep_eq (g.s_pos_of_level h hlo i) (hin i).1 (hin i).2
    ((g.residue_iff h hp hlo).1 rfl i)

theorem winBlock_dep (g : BGraph d) (h : g.Wf) (hc : g.conflict = true) {a lo lo' : Coord d}
    {k : Nat} (ha : g.Window a) (hk : g.levelOffsets[k]? = some lo)
    (hk' : g.levelOffsets[k + 1]? = some lo') : g.Dep (g.winBlock a lo) (g.winBlock a lo') := by
  refine ⟨hc, by rw [g.winBlock_lvl h ha hk, g.winBlock_lvl h ha hk'], ?_⟩
  intro i
  have hlo : lo ∈ g.levelOffsets := List.mem_of_getElem? hk
  have hs := g.s_pos_of_level h hlo i
  have h1 := rep_spec (a := a.get i) (r := lo.get i) hs
  have h2 := rep_spec (a := a.get i) (r := lo'.get i) hs
  unfold winBlock
  rw [Vec.get_ofFn, Vec.get_ofFn]
  omega

/-- `p` is transitively upstream of `q` in the grid. -/
def GDep (g : BGraph d) (p q : Coord d) : Prop := g.Grid p ∧ g.Grid q ∧ g.Dep p q

theorem window_chain (g : BGraph d) (h : g.Wf) (hc : g.conflict = true) {a : Coord d}
    (ha : g.Window a) (k : Nat) (lo : Coord d) (hk : g.levelOffsets[k]? = some lo) :
    ∀ (n : Nat) (lo' : Coord d), g.levelOffsets[k + (n + 1)]? = some lo' →
      Relation.TransGen g.GDep (g.winBlock a lo) (g.winBlock a lo')
  | 0, lo', hk' => by
    exact Relation.TransGen.single ⟨g.winBlock_grid h ha (List.mem_of_getElem? hk),
      g.winBlock_grid h ha (List.mem_of_getElem? hk'), g.winBlock_dep h hc ha hk hk'⟩
  | n + 1, lo', hk' => by
    have hlt : k + (n + 1) < g.levelOffsets.length := by
      have := (List.getElem?_eq_some_iff.1 hk').1
      omega
    have e := List.getElem?_eq_getElem hlt
    refine Relation.TransGen.tail (window_chain g h hc ha k lo hk n _ e) ?_
    exact ⟨g.winBlock_grid h ha (List.mem_of_getElem? e),
      g.winBlock_grid h ha (List.mem_of_getElem? hk'), g.winBlock_dep h hc ha e hk'⟩

/-- Two different blocks closer than a stride in every dimension are ordered. -/
theorem close_ordered (g : BGraph d) (h : g.Wf) (hc : g.conflict = true) {p q : Coord d}
    (hp : g.Grid p) (hq : g.Grid q) (hne : p ≠ q)
    (hclose : ∀ i, p.get i - q.get i < g.s i ∧ q.get i - p.get i < g.s i) :
    Relation.TransGen g.GDep p q ∨ Relation.TransGen g.GDep q p := by
  obtain ⟨a, ha, hap, haq⟩ := g.exists_window h hp hq hclose
  have ep := g.winBlock_eq h hp hap
  have eq := g.winBlock_eq h hq haq
  have lp := g.lvl_get h hp
  have lq := g.lvl_get h hq
  rcases Nat.lt_trichotomy (g.lvl p) (g.lvl q) with hlt | heq | hgt
  · left
    obtain ⟨n, hn⟩ : ∃ n, g.lvl q = g.lvl p + (n + 1) := ⟨g.lvl q - g.lvl p - 1, by omega⟩
    rw [hn] at lq
    have := g.window_chain h hc ha _ _ lp n _ lq
    rwa [ep, eq] at this
  · exfalso
    apply hne
    rw [heq, lq] at lp
    have := Option.some.inj lp
    rw [← ep, ← eq, this]
  · right
    obtain ⟨n, hn⟩ : ∃ n, g.lvl p = g.lvl q + (n + 1) := ⟨g.lvl p - g.lvl q - 1, by omega⟩
    rw [hn] at lp
    have := g.window_chain h hc ha _ _ lq n _ lp
    rwa [ep, eq] at this

/-- A block above level 0 has an upstream block. -/
theorem has_upstream (g : BGraph d) (h : g.Wf) (hc : g.conflict = true) {q : Coord d}
    (hq : g.Grid q) (hl : 0 < g.lvl q) : ∃ p, g.Grid p ∧ g.Dep p q := by
  obtain ⟨a, ha, haq, _⟩ := g.exists_window h hq hq (fun i => by
    have hs := g.s_pos_of_level h (g.residue_level h hq) i
    exact ⟨by omega, by omega⟩)
  have eq := g.winBlock_eq h hq haq
  have lq := g.lvl_get h hq
  have hlt := g.lvl_lt h hq
  obtain ⟨k, hk⟩ : ∃ k, g.lvl q = k + 1 := ⟨g.lvl q - 1, by omega⟩
  obtain ⟨klo, e, _⟩ := g.getElem?_of_lt (k := k) (by omega)
  rw [hk] at lq
  have := g.winBlock_dep h hc ha e lq
  rw [eq] at this
  exact ⟨_, g.winBlock_grid h ha (List.mem_of_getElem? e), this⟩

/-- Without conflicts there is at most one level. -/
theorem lvl_noconf (g : BGraph d) (h : g.Wf) (hc : g.conflict = false) {q : Coord d}
    (hq : g.Grid q) : g.lvl q = 0 := by
  have h0 : ∀ lo ∈ g.levelOffsets, lo = Vec.const d 0 := by
    intro lo hlo
    apply Vec.ext_get; intro i
    have h1 := (g.mem_levelOffsets h lo).1 hlo i
    rw [g.s_noconf hc] at h1
    rw [Vec.get_const]
    refine dvd_close (w := g.w i) h1.2.2 (dvd_zero _) (by omega) (by have := h.wpos i; omega)
  have hnd := g.nodup_levelOffsets h
  have hlt := g.lvl_lt h hq
  by_contra hne
  obtain ⟨lo0, e1, hlo0⟩ := g.getElem?_of_lt (k := 0) (by omega)
  have e2 := g.lvl_get h hq
  have h1 := h0 _ (List.mem_of_getElem? e1)
  have h2 := h0 _ (List.mem_of_getElem? e2)
  have h3 : g.levelOffsets[0]? = g.levelOffsets[g.lvl q]? := by rw [e1, e2, h1, h2]
  have := (List.nodup_iff_getElem?_ne_getElem?.1 hnd) 0 (g.lvl q) (by omega) hlt
  exact this h3

/-- A read/write overlap of two blocks means they are closer than a stride. -/
theorem overlap_close (g : BGraph d) (h : g.Wf) (hc : g.conflict = true) {p q : Coord d}
    (hp : g.Grid p) (hq : g.Grid q) (hov : Overlap (g.blk p).readRoi (g.blk q).writeRoi) :
    ∀ i, p.get i - q.get i < g.s i ∧ q.get i - p.get i < g.s i := by
  intro i
  have hctx := h.ctx hc
  have hr := g.blk_read h hctx p (g.grid_admissible hp)
  have hwp := g.blk_write h p (g.grid_admissible hp)
  have hw := g.blk_write h q (g.grid_admissible hq)
  obtain ⟨x, hx1, hx2⟩ := hov
  have h1 := hx1 i
  have h2 := hx2 i
  rw [hr.1 i, hr.2 i, hwp.2 i] at h1
  rw [hw.1 i, hw.2 i, g.tw_off h i] at h2
  have h3 := g.stride_sep h hc i
  have h4 := hp i
  have h5 := hq i
  have h6 := hctx i
  have h7 : g.cl i ≤ g.mctx i ∧ g.cu i ≤ g.mctx i := by
    unfold mctx; omega
  have h8 : (if g.fit = .shrink then min (g.w i) (g.t i - p.get i) else g.w i) ≤ g.w i := by
    split <;> omega
  have h9 : (if g.fit = .shrink then min (g.w i) (g.t i - q.get i) else g.w i) ≤ g.w i := by
    split <;> omega
  omega

end Verif.BGraph
