import Verif.Props.BlockIds
import Mathlib.Algebra.BigOperators.Fin

/-! # C113: how large the numbers of blocks are, and labels made from them -/

namespace Verif

open BGraph

variable {d : Nat}

/-- The Cantor number of a nonnegative coordinate lies between two binomial coefficients of the sum of its entries. -/
theorem cantorNumber_bounds {c : Coord d} (hd : 0 < d) (hc : ∀ i, 0 ≤ c.get i) :
    (((∑ i, c.get i).toNat + d - 1).choose d : Int) ≤ cantorNumber c ∧
      cantorNumber c < (((∑ i, c.get i).toNat + d).choose d : Int) := by
  have conv : c.toList = (c.toList.map Int.toNat).map (fun n : Nat => (n : Int)) := by
    rw [List.map_map]
    conv_lhs => rw [← List.map_id c.toList]
    apply List.map_congr_left
    intro x hx
    obtain ⟨n, hn, rfl⟩ := List.getElem_of_mem hx
    have := hc ⟨n, by rw [← c.len]; exact hn⟩
    simp only [id, Function.comp]
    rw [Int.toNat_of_nonneg]
    exact this
  have hrev : cantorNumber c = (cantorNat (c.toList.map Int.toNat).reverse : Int) := by
    unfold cantorNumber
    conv_lhs => rw [conv]
    rw [← List.map_reverse, cantorRev_cast]
  have hsum : (∑ i, c.get i).toNat = (c.toList.map Int.toNat).reverse.sum := by
    have h1 : ∑ i, c.get i = c.toList.sum := by
      have h2 : c.toList = List.ofFn (fun i : Fin d => c.get i) := by
        apply List.ext_getElem
        · simp [c.len]
        · intro n h1 h2
          rw [List.getElem_ofFn]
          rfl
      rw [h2, List.sum_ofFn]
    rw [h1, List.sum_reverse]
    conv_lhs => rw [conv]
    rw [← cast_sum]
    exact Int.toNat_natCast _
  have hlen : (c.toList.map Int.toNat).reverse.length = d := by simp [c.len]
  have hb := cantorNat_bounds (c.toList.map Int.toNat).reverse (by
    intro h0
    rw [h0] at hlen
    simp at hlen
    omega)
  rw [hlen, ← hsum] at hb
  rw [hrev]
  exact ⟨by exact_mod_cast hb.1, by exact_mod_cast hb.2⟩

namespace Props

variable {g : BGraph d} {bs : List (Block d)} {a b : Block d}

/-- How many blocks lie between the begin of the total ROI and the block, summed over the axes. -/
def distance (g : BGraph d) (b : Block d) : Nat :=
  (∑ i, (b.writeRoi.offset.get i - g.totalRead.offset.get i) / g.blockWrite.shape.get i).toNat

/-- C113: the number of a block that is `s` blocks away from the begin of the total ROI lies between the binomial
coefficients `C(s + d - 1, d)` and `C(s + d, d)`. -/
theorem C113_bounds_partial (h : g.Wf) (hd : 0 < d) (hc : ∀ i, g.blockRead.offset.get i ≤ g.blockWrite.offset.get i)
    (hbs : g.blocks = .ok bs) (hb : b ∈ bs) :
    ((distance g b + d - 1).choose d : Int) ≤ b.idNum ∧ b.idNum < ((distance g b + d).choose d : Int) := by
  obtain ⟨o, ho, rfl⟩ := (g.mem_blocks h hbs b).1 hb
  have hc1 : ∀ i, 0 ≤ g.cl i := fun i => by have := hc i; unfold cl; omega
  obtain ⟨c, e1, e2⟩ := g.idNum_index h hc1 ho
  have e : distance g (g.blk o) = (∑ i, c.get i).toNat := by
    unfold distance
    congr 1
    apply Finset.sum_congr rfl
    intro i _
    rw [(e2 i).2, (g.blk_write h o (fun i => ⟨(ho i).1, (ho i).2.1⟩)).1 i, g.tw_off h i]
    congr 1
    ring
  rw [e, e1]
  exact cantorNumber_bounds hd (fun i => (e2 i).1)

/-- C113: all numbers are natural numbers below a binomial coefficient of the size of the total ROI, counted in blocks. -/
theorem C113_all_partial (h : g.Wf) (hd : 0 < d) (hc : ∀ i, g.blockRead.offset.get i ≤ g.blockWrite.offset.get i)
    (hbs : g.blocks = .ok bs) (hb : b ∈ bs) :
    0 ≤ b.idNum ∧ b.idNum < (((∑ i, (g.totalWrite.offset.get i + g.totalWrite.shape.get i - 1 - g.totalRead.offset.get i) /
      g.blockWrite.shape.get i).toNat + d).choose d : Int) := by
  obtain ⟨h1, h2⟩ := C113_bounds_partial h hd hc hbs hb
  refine ⟨le_trans (by exact_mod_cast Nat.zero_le _) h1, lt_of_lt_of_le h2 ?_⟩
  have : distance g b ≤ (∑ i, (g.totalWrite.offset.get i + g.totalWrite.shape.get i - 1 - g.totalRead.offset.get i) /
      g.blockWrite.shape.get i).toNat := by
    obtain ⟨o, ho, rfl⟩ := (g.mem_blocks h hbs b).1 hb
    refine Int.toNat_le_toNat (Finset.sum_le_sum fun i _ => ?_)
    refine Int.ediv_le_ediv (h.wpos i) ?_
    rw [(g.blk_write h o (fun i => ⟨(ho i).1, (ho i).2.1⟩)).1 i]
    have h3 := (ho i).2.1
    have h4 : g.u i ≤ g.totalWrite.shape.get i := g.u_le_t h i
    omega
  exact_mod_cast Nat.choose_le_choose d (by omega)

/-- C113, labels (examples/tutorial.py:1046-1051 and 1232-1237): objects in a block are numbered from 1 to at most `m`, and
the number of the block times `m` is added.  Different objects have different labels, also in different blocks. -/
theorem C113_labels_partial (h : g.Wf) (hc : ∀ i, g.blockRead.offset.get i ≤ g.blockWrite.offset.get i)
    (hbs : g.blocks = .ok bs) (ha : a ∈ bs) (hb : b ∈ bs) {m j k : Int} (hj : 1 ≤ j ∧ j ≤ m) (hk : 1 ≤ k ∧ k ≤ m)
    (hlabel : j + a.idNum * m = k + b.idNum * m) : a = b ∧ j = k := by
  have hid : a.idNum = b.idNum := by
    rcases lt_trichotomy a.idNum b.idNum with hlt | heq | hgt
    · have : (a.idNum + 1) * m ≤ b.idNum * m := Int.mul_le_mul_of_nonneg_right hlt (by omega)
      rw [add_mul] at this
      omega
    · exact heq
    · have : (b.idNum + 1) * m ≤ a.idNum * m := Int.mul_le_mul_of_nonneg_right hgt (by omega)
      rw [add_mul] at this
      omega
  rw [hid] at hlabel
  refine ⟨?_, by omega⟩
  obtain ⟨o, ho, rfl⟩ := (g.mem_blocks h hbs a).1 ha
  obtain ⟨p, hp, rfl⟩ := (g.mem_blocks h hbs b).1 hb
  rw [g.idNum_inj h (fun i => by have := hc i; unfold cl; omega) ho hp hid]

/-- C113 is false if the write ROI begins before the read ROI: a block has a negative number, and two blocks share theirs. -/
theorem C113_false : ∃ bs a b c, negCtx.blocks = .ok bs ∧ a ∈ bs ∧ b ∈ bs ∧ c ∈ bs ∧ a.idNum < 0 ∧ b ≠ c ∧
    ∀ j m : Int, j + b.idNum * m = j + c.idNum * m := by
  refine ⟨_, negCtx.blk (Ex.c1 0), negCtx.blk (Ex.c1 2), negCtx.blk (Ex.c1 4), rfl, ?_, ?_, ?_, ?_, ?_, fun j m => ?_⟩
  · decide +kernel
  · decide +kernel
  · decide +kernel
  · decide +kernel
  · decide +kernel
  · have : (negCtx.blk (Ex.c1 2)).idNum = (negCtx.blk (Ex.c1 4)).idNum := by decide +kernel
    rw [this]

/-- For `C113_bounds_partial`, `C113_all_partial` and `C113_labels_partial`: two blocks of a two-dimensional task. -/
example : (Ex.g2 .valid).Wf ∧ (∀ i, (Ex.g2 .valid).blockRead.offset.get i ≤ (Ex.g2 .valid).blockWrite.offset.get i) ∧
    ∃ bs a b, (Ex.g2 .valid).blocks = .ok bs ∧ a ∈ bs ∧ b ∈ bs ∧ a.idNum = 2 ∧ b.idNum = 18 ∧ distance (Ex.g2 .valid) b = 5 := by
  refine ⟨Ex.g2_wf _, by decide, _, (Ex.g2 .valid).blk (Ex.c2 0 0), (Ex.g2 .valid).blk (Ex.c2 4 4), rfl, ?_⟩
  decide +kernel

end Props

end Verif
