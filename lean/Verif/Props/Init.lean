import Verif.Props.Geometry
import Verif.Proofs.PipelineWf

/-! # The blocks of a task from the arguments of the task (C64) -/

namespace Verif.Props

open Verif Verif.Spec Verif.BGraph

variable {d : Nat}

/-- Write ROIs of blocks begin at this coordinate: the total ROI, less the lower context. -/
def Spec.first (a : TaskInfo d) (i : Fin d) : Int :=
  a.totalRoi.offset.get i + (a.writeRoi.offset.get i - a.readRoi.offset.get i)

/-- Voxels that can be written end here: the end of the total ROI, less the upper context. -/
def Spec.last (a : TaskInfo d) (i : Fin d) : Int :=
  a.totalRoi.offset.get i + a.totalRoi.shape.get i -
    (a.readRoi.offset.get i + a.readRoi.shape.get i - (a.writeRoi.offset.get i + a.writeRoi.shape.get i))

/-- The cells of the grid that get a block: those that begin before the end and, with `fit='valid'`, also end
before it. -/
def Spec.Used (a : TaskInfo d) (k : Fin d → Int) : Prop :=
  ∀ i, 0 ≤ k i ∧
    if a.fit = .valid then first a i + (k i + 1) * a.writeRoi.shape.get i ≤ last a i
    else first a i + k i * a.writeRoi.shape.get i < last a i

/-- `b` is the block of cell `k`: its write ROI is the cell, cut off at the end with `fit='shrink'`, and its read
ROI the write ROI plus the context. -/
def Spec.IsBlock (a : TaskInfo d) (k : Fin d → Int) (b : Block d) : Prop :=
  ∀ i, b.writeRoi.offset.get i = first a i + k i * a.writeRoi.shape.get i ∧
    b.writeRoi.offset.get i + b.writeRoi.shape.get i =
      (if a.fit = .shrink then min (first a i + (k i + 1) * a.writeRoi.shape.get i) (last a i)
        else first a i + (k i + 1) * a.writeRoi.shape.get i) ∧
    b.readRoi.offset.get i =
      b.writeRoi.offset.get i - (a.writeRoi.offset.get i - a.readRoi.offset.get i) ∧
    b.readRoi.offset.get i + b.readRoi.shape.get i =
      b.writeRoi.offset.get i + b.writeRoi.shape.get i +
        (a.readRoi.offset.get i + a.readRoi.shape.get i - (a.writeRoi.offset.get i + a.writeRoi.shape.get i))

theorem task_wf {t : Task d} {g : BGraph d} (h : Pipeline.taskGraph t = .ok g) (hr : t.info.Regular) : g.Wf := by
  obtain ⟨_, _, _, _, _, e6⟩ := Pipeline.taskGraph_init h
  refine BGraph.wf_of_init h hr.wpos fun i => ?_
  have := hr.room i
  rw [e6]
  simp only [Roi.grow, Coord.get_add, Coord.get_sub, Coord.get_neg, Roi.get_lo, Roi.get_hi]
  omega

/-- The block at a grid offset is the block of the cell. -/
theorem isBlock_blk {t : Task d} {g : BGraph d} (h : Pipeline.taskGraph t = .ok g) (hr : t.info.Regular)
    {o : Coord d} (ho : g.Grid o) {k : Fin d → Int} (hk : ∀ i, o.get i = k i * g.w i) :
    Spec.IsBlock t.info k (g.blk o) := by
  obtain ⟨e1, e2, _, e4, e5, _⟩ := Pipeline.taskGraph_init h
  have hw := task_wf h hr
  have w1 := g.blk_write hw o (g.grid_admissible ho)
  intro i
  have ew : g.w i = t.info.writeRoi.shape.get i := by rw [← e2]; rfl
  have hoff := g.tw_off hw i
  have hsh := g.tw_shape hw i
  have hcl : g.cl i = t.info.writeRoi.offset.get i - t.info.readRoi.offset.get i := by
    unfold BGraph.cl; rw [e1, e2]
  have hcu : g.cu i = t.info.readRoi.offset.get i + t.info.readRoi.shape.get i -
      (t.info.writeRoi.offset.get i + t.info.writeRoi.shape.get i) := by
    unfold BGraph.cu; rw [e1, e2]
  rw [e5] at hoff hsh
  have a1 := w1.1 i
  have a2 := w1.2 i
  have hmul : (k i + 1) * g.w i = k i * g.w i + g.w i := by ring
  have hrd : (g.blk o).readRoi.offset.get i = g.totalRead.offset.get i + o.get i ∧
      (g.blk o).readRoi.shape.get i = (g.blk o).writeRoi.shape.get i + g.cl i + g.cu i := by
    by_cases hs : g.fit = .shrink
    · have hc : g.CtxNonneg := by
        intro j
        have h1 := hr.lower j
        have h2 := hr.upper (by rw [← e4]; exact hs) j
        unfold BGraph.cl BGraph.cu
        rw [e1, e2]
        omega
      have r := g.blk_read hw hc o (g.grid_admissible ho)
      exact ⟨r.1 i, r.2 i⟩
    · refine ⟨g.blk_read_off hw (.inr hs) o (g.grid_admissible ho) i, ?_⟩
      rw [a2, if_neg hs]
      have hbr : g.blockRead.shape.get i = g.w i + g.cl i + g.cu i := by
        simp only [BGraph.w, BGraph.cl, BGraph.cu]; ring
      rw [← hbr]
      unfold blk fitBlock
      cases hq : g.fit
      · simp [raw, Block.new]
      · simp [raw, Block.new]
      · exact absurd hq hs
  rw [e5] at hrd
  simp only [Spec.first, Spec.last, ← ew, hmul]
  rw [← e4]
  have hk' := hk i
  refine ⟨by omega, ?_, by omega, by omega⟩
  split at a2
  · next hs => rw [if_pos hs]; omega
  · next hs => rw [if_neg hs]; omega

theorem grid_of_used {t : Task d} {g : BGraph d} (h : Pipeline.taskGraph t = .ok g) (hr : t.info.Regular)
    (k : Fin d → Int) : g.Grid (Vec.ofFn fun i => k i * g.w i) ↔ Spec.Used t.info k := by
  obtain ⟨e1, e2, _, e4, e5, _⟩ := Pipeline.taskGraph_init h
  have hw := task_wf h hr
  unfold BGraph.Grid Spec.Used
  refine forall_congr' fun i => ?_
  rw [Vec.get_ofFn]
  have ew : g.w i = t.info.writeRoi.shape.get i := by rw [← e2]; rfl
  have hsh := g.tw_shape hw i
  have hcl : g.cl i = t.info.writeRoi.offset.get i - t.info.readRoi.offset.get i := by
    unfold BGraph.cl; rw [e1, e2]
  have hcu : g.cu i = t.info.readRoi.offset.get i + t.info.readRoi.shape.get i -
      (t.info.writeRoi.offset.get i + t.info.writeRoi.shape.get i) := by
    unfold BGraph.cu; rw [e1, e2]
  rw [e5] at hsh
  have hpos := hw.wpos i
  have hmul : (k i + 1) * g.w i = k i * g.w i + g.w i := by ring
  have hnn : 0 ≤ k i * g.w i ↔ 0 ≤ k i := by
    constructor
    · intro hh
      by_contra hcon
      have := Int.mul_neg_of_neg_of_pos (by omega : k i < 0) hpos
      omega
    · intro hh
      exact Int.mul_nonneg hh (le_of_lt hpos)
  rw [hnn]
  simp only [Spec.first, Spec.last, ← ew, hmul, ← e4]
  by_cases hf : g.fit = .valid
  · rw [if_pos hf, g.u_valid hf]
    constructor
    · rintro ⟨p, q, _⟩
      exact ⟨p, by omega⟩
    · rintro ⟨p, q⟩
      exact ⟨p, by omega, ⟨k i, by ring⟩⟩
  · rw [if_neg hf, g.u_other hf]
    constructor
    · rintro ⟨p, q, _⟩
      exact ⟨p, by omega⟩
    · rintro ⟨p, q⟩
      exact ⟨p, by omega, ⟨k i, by ring⟩⟩

/-- The enumerated blocks are exactly the blocks of the used cells, one per cell. -/
theorem C64_blocks {t : Task d} {g : BGraph d} (h : Pipeline.taskGraph t = .ok g) (hr : t.info.Regular)
    {bs : List (Block d)} (hbs : g.blocks = .ok bs) :
    bs.Nodup ∧ (∀ b ∈ bs, ∃ k, Spec.Used t.info k ∧ Spec.IsBlock t.info k b) ∧
      ∀ k, Spec.Used t.info k → ∃! b, b ∈ bs ∧ Spec.IsBlock t.info k b := by
  have hw := task_wf h hr
  refine ⟨g.nodup_blocks hw hbs, ?_, ?_⟩
  · intro b hb
    obtain ⟨o, ho, rfl⟩ := (g.mem_blocks hw hbs b).1 hb
    have hk : ∀ i, ∃ k, o.get i = k * g.w i := fun i => by
      obtain ⟨k, hk⟩ := (ho i).2.2
      exact ⟨k, by rw [hk]; ring⟩
    choose k hk using hk
    have ho' : o = Vec.ofFn fun i => k i * g.w i := Vec.ext_get fun i => by rw [Vec.get_ofFn, hk]
    exact ⟨k, (grid_of_used h hr k).1 (ho' ▸ ho), isBlock_blk h hr ho hk⟩
  · intro k hk
    have ho := (grid_of_used h hr k).2 hk
    have hb := isBlock_blk h hr ho (k := k) fun i => Vec.get_ofFn _ i
    refine ⟨_, ⟨(g.mem_blocks hw hbs _).2 ⟨_, ho, rfl⟩, hb⟩, ?_⟩
    rintro b ⟨hbm, hbk⟩
    obtain ⟨o, ho', rfl⟩ := (g.mem_blocks hw hbs b).1 hbm
    congr 1
    apply Vec.ext_get; intro i
    have w1 := (g.blk_write hw o (g.grid_admissible ho')).1 i
    have w2 := (g.blk_write hw _ (g.grid_admissible ho)).1 i
    have h1 := (hbk i).1
    have h2 := (hb i).1
    omega

/-- Every voxel that a block may write (a voxel whose context lies in the total ROI) is written by exactly one
block, unless `fit='valid'`. -/
theorem C64_cover {t : Task d} {g : BGraph d} (h : Pipeline.taskGraph t = .ok g) (hr : t.info.Regular)
    (hf : t.info.fit ≠ .valid) {bs : List (Block d)} (hbs : g.blocks = .ok bs) (p : Coord d)
    (hp : ∀ i, Spec.first t.info i ≤ p.get i ∧ p.get i < Spec.last t.info i) :
    ∃! b, b ∈ bs ∧ InRoi p b.writeRoi := by
  obtain ⟨e1, e2, _, e4, e5, _⟩ := Pipeline.taskGraph_init h
  have hw := task_wf h hr
  refine C02_cover g hw (by rw [e4]; exact hf) hbs p fun i => ?_
  have h1 := hp i
  have hoff := g.tw_off hw i
  have hsh := g.tw_shape hw i
  simp only [Spec.first, Spec.last] at h1
  unfold BGraph.cl at hoff
  unfold BGraph.cl BGraph.cu BGraph.t at hsh
  rw [e1, e2, e5] at hsh hoff
  omega

/-- Unless `fit='overhang'`, all blocks read within the total ROI and write at least the lower and upper context
away from its borders. -/
theorem C64_within {t : Task d} {g : BGraph d} (h : Pipeline.taskGraph t = .ok g) (hr : t.info.Regular)
    (hf : t.info.fit ≠ .overhang) {bs : List (Block d)} (hbs : g.blocks = .ok bs) {b : Block d} (hb : b ∈ bs) :
    Within b.readRoi t.info.totalRoi ∧
      ∀ p, InRoi p b.writeRoi → ∀ i, Spec.first t.info i ≤ p.get i ∧ p.get i < Spec.last t.info i := by
  obtain ⟨k, hk, hb⟩ := (C64_blocks h hr hbs).2.1 b hb
  have key : ∀ i, Spec.first t.info i ≤ b.writeRoi.offset.get i ∧
      b.writeRoi.offset.get i + b.writeRoi.shape.get i ≤ Spec.last t.info i := by
    intro i
    obtain ⟨h1, h2, _, _⟩ := hb i
    obtain ⟨k1, k2⟩ := hk i
    have := Int.mul_nonneg k1 (le_of_lt (hr.wpos i))
    have hmul : (k i + 1) * t.info.writeRoi.shape.get i =
      k i * t.info.writeRoi.shape.get i + t.info.writeRoi.shape.get i := by ring
    refine ⟨by omega, ?_⟩
    rw [h2]
    cases hq : t.info.fit with
    | valid => rw [hq] at k2; simpa using k2
    | overhang => exact absurd hq hf
    | shrink => simp
  constructor
  · intro p hp i
    have h1 := hp i
    have h2 := hb i
    have h3 := key i
    simp only [Spec.first, Spec.last] at h3
    omega
  · intro p hp i
    have h1 := hp i
    have h3 := key i
    omega

/-- `w` is `r` without the context of the block definition. -/
def Spec.Fits (br bw r w : Roi d) : Prop :=
  ∀ i, w.lo.get i - r.lo.get i = bw.lo.get i - br.lo.get i ∧ r.hi.get i - w.hi.get i = br.hi.get i - bw.hi.get i

/-- What the constructor does with its total ROIs: a given one is kept, a missing one is computed so that the
context fits exactly. -/
theorem C64_total_rois {id : Nat} {br bw : Roi d} {c : Bool} {f : Fit} {tr tw : Option (Roi d)} {g : BGraph d}
    (h : BGraph.init id br bw c f tr tw = .ok g) :
    (∀ r, tr = some r → g.totalRead = r) ∧ (∀ r, tw = some r → g.totalWrite = r) ∧
      Spec.Fits br bw g.totalRead g.totalWrite := by
  have hinv : ∀ (tr' tw' : Roi d), (if (c && !br.containsRoi bw) = true then
      (.error .assertion : Except PyErr (BGraph d)) else .ok ⟨id, br, bw, c, f, tr', tw'⟩) = .ok g →
      g.totalRead = tr' ∧ g.totalWrite = tw' := by
    intro tr' tw' h
    split at h
    · cases h
    · cases h; exact ⟨rfl, rfl⟩
  have hg : ∀ r : Roi d, Spec.Fits br bw r (r.grow (-(bw.lo - br.lo)) (-(br.hi - bw.hi))) := by
    intro r i
    simp only [Roi.grow, Roi.get_lo, Roi.get_hi, Coord.get_add, Coord.get_sub, Coord.get_neg]
    omega
  have hg' : ∀ r : Roi d, Spec.Fits br bw (r.grow (bw.lo - br.lo) (br.hi - bw.hi)) r := by
    intro r i
    simp only [Roi.grow, Roi.get_lo, Roi.get_hi, Coord.get_add, Coord.get_sub]
    omega
  unfold BGraph.init at h
  cases tr with
  | none =>
    cases tw with
    | none => cases h
    | some w =>
      obtain ⟨h1, h2⟩ := hinv _ _ h
      refine ⟨(by simp), ?_, ?_⟩
      · rintro r ⟨⟩; exact h2
      · rw [h1, h2]; exact hg' w
  | some r =>
    cases tw with
    | none =>
      obtain ⟨h1, h2⟩ := hinv _ _ h
      refine ⟨?_, (by simp), ?_⟩
      · rintro r ⟨⟩; exact h1
      · rw [h1, h2]; exact hg r
    | some w =>
      simp only at h
      split at h
      · next hc =>
        obtain ⟨h1, h2⟩ := hinv _ _ h
        refine ⟨?_, ?_, ?_⟩
        · rintro r ⟨⟩; exact h1
        · rintro w ⟨⟩
          rw [h2]
          have e1 := fun i => congrArg (fun v => v.get i) hc.1
          have e2 := fun i => congrArg (fun v => v.get i) hc.2
          simp only [ctxLo, ctxHi, Coord.get_sub, Roi.get_lo, Roi.get_hi] at e1 e2
          cases w with
          | mk o s =>
            simp only [Roi.grow, Roi.mk.injEq]
            constructor <;>
              (apply Vec.ext_get; intro i
               have := e1 i
               have := e2 i
               simp only [ctxLo, ctxHi, Coord.get_add, Coord.get_sub, Coord.get_neg, Roi.get_lo, Roi.get_hi]
               simp only at *
               omega)
        · rw [h1, h2]; exact hg r
      · cases h

/-- When the constructor accepts its arguments (with a write ROI that is not empty): a total ROI must be given, two
must fit together, and with `read_write_conflict` the read ROI must contain the write ROI. -/
theorem C64_accepts (id : Nat) (br bw : Roi d) (c : Bool) (f : Fit) (tr tw : Option (Roi d))
    (hw : ∀ i, 0 < bw.shape.get i) :
    (∃ g, BGraph.init id br bw c f tr tw = .ok g) ↔
      (tr ≠ none ∨ tw ≠ none) ∧ (∀ r w, tr = some r → tw = some w → Spec.Fits br bw r w) ∧
      (c = true → Within bw br) := by
  have hcon : br.containsRoi bw = true ↔ Within bw br := by
    have hne : bw.isEmpty = false := by
      rw [Bool.eq_false_iff, ne_eq, Roi.isEmpty_iff]
      rintro ⟨j, hj⟩
      have := hw j
      omega
    simp only [Roi.containsRoi, hne, Bool.false_eq_true, if_false, Bool.and_eq_true,
      Roi.containsPoint_iff, Coord.get_sub, Vec.get_const, Roi.get_hi, Roi.get_lo]
    constructor
    · rintro ⟨h1, h2⟩ p hp i
      have := h1 i
      have := h2 i
      have := hp i
      omega
    · intro hin
      refine ⟨fun i => hin bw.offset (fun j => ⟨le_refl _, ?_⟩) i, fun i => ?_⟩
      · have := hw j; omega
      · have := hin (Vec.ofFn fun j => bw.offset.get j + bw.shape.get j - 1)
          (fun j => by rw [Vec.get_ofFn]; have := hw j; omega) i
        rw [Vec.get_ofFn] at this
        omega
  have hfin : ∀ (tr' tw' : Roi d), (∃ g, (if (c && !br.containsRoi bw) = true then
      (.error .assertion : Except PyErr (BGraph d)) else .ok ⟨id, br, bw, c, f, tr', tw'⟩) = .ok g) ↔
      (c = true → Within bw br) := by
    intro tr' tw'
    rw [← hcon]
    cases c <;> cases hq : br.containsRoi bw <;> simp
  have hfits : ∀ r w : Roi d, (w.lo - r.lo = ctxLo br bw ∧ r.hi - w.hi = ctxHi br bw) ↔ Spec.Fits br bw r w := by
    intro r w
    unfold Spec.Fits
    rw [Vec.ext_iff_get, Vec.ext_iff_get, ← forall_and]
    simp only [ctxLo, ctxHi, Coord.get_sub]
  unfold BGraph.init
  cases tr with
  | none =>
    cases tw with
    | none => simp
    | some w => simpa using hfin _ _
  | some r =>
    cases tw with
    | none => simpa using hfin _ _
    | some w =>
      have h1 := hfits r w
      by_cases hh : w.lo - r.lo = ctxLo br bw ∧ r.hi - w.hi = ctxHi br bw
      · simp only [if_pos hh, ne_eq, reduceCtorEq, not_false_eq_true, or_self, true_and, Option.some.injEq]
        rw [hfin]
        constructor
        · intro hc
          exact ⟨by rintro _ _ rfl rfl; exact h1.1 hh, hc⟩
        · exact fun hc => hc.2
      · simp only [if_neg hh]
        constructor
        · rintro ⟨_, ⟨⟩⟩
        · rintro ⟨_, h2, _⟩
          exact absurd (h1.2 (h2 r w rfl rfl)) hh

/-- Total ROI `[0, 41)`, blocks that read `[0, 10)` and write `[3, 7)`. -/
def initTask (f : Fit) : Task 1 := ⟨0, ⟨Ex.r1 0 41, Ex.r1 0 10, Ex.r1 3 7, true, f, 2⟩, []⟩

/-- It meets the hypotheses of the theorems; with `fit='shrink'` the last of nine cells is cut to `[35, 38)`. -/
example : (initTask .shrink).info.Regular ∧
    (Pipeline.taskGraph (initTask .shrink)).toOption.isSome = true ∧
    Spec.Used (initTask .shrink).info (fun _ => 8) ∧ ¬Spec.Used (initTask .shrink).info (fun _ => 9) ∧
    ¬Spec.Used (initTask .valid).info (fun _ => 8) := by
  refine ⟨⟨?_, ?_, ?_, ?_⟩, ?_, ?_, ?_, ?_⟩
  · decide
  · decide
  · decide
  · intro _; decide
  · decide
  · unfold Spec.Used Spec.first Spec.last; decide
  · unfold Spec.Used Spec.first Spec.last; decide
  · unfold Spec.Used Spec.first Spec.last; decide

example : Spec.IsBlock (initTask .shrink).info (fun _ => 8) ⟨0, Ex.r1 32 41, Ex.r1 35 38, 8⟩ := by
  unfold Spec.IsBlock Spec.first Spec.last; decide

end Verif.Props
