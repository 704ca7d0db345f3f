import Verif.Proofs.Levels
import Mathlib.Data.Nat.Choose.Factorization
import Mathlib.Data.Nat.Factorial.BigOperators

/-! # The generalised Cantor number is injective on nonnegative coordinates -/

namespace Verif

theorem risingProd_cast (e : Nat) : ∀ n : Nat, risingProd (e : Int) n = (e.ascFactorial n : Int)
  | 0 => by simp [risingProd]
  | n + 1 => by
    rw [risingProd, risingProd_cast e n, Nat.ascFactorial_succ]
    push_cast
    ring

theorem pyramideVolume_cast (e n : Nat) (hn : 0 < n) :
    pyramideVolume (e : Int) n = ((e + n - 1).choose n : Int) := by
  unfold pyramideVolume
  split
  · rename_i h
    have : e = 0 := by exact_mod_cast h
    subst this
    rw [Nat.choose_eq_zero_of_lt (by omega)]
    rfl
  · rw [risingProd_cast, Nat.ascFactorial_eq_factorial_mul_choose']
    push_cast
    rw [Int.mul_ediv_cancel_left]
    exact_mod_cast Nat.factorial_ne_zero n

/-- Cantor number on natural numbers, reversed list. -/
def cantorNat : List Nat → Nat
  | [] => 0
  | [x] => x
  | x :: y :: r => (x + (y :: r).sum + (r.length + 2) - 1).choose (r.length + 2) + cantorNat (y :: r)

theorem cast_sum (l : List Nat) : (((l.sum : Nat) : Int)) = (l.map (fun n : Nat => (n : Int))).sum := by
  induction l with
  | nil => rfl
  | cons a l ih => simp [ih]

theorem cantorRev_cast : ∀ l : List Nat, cantorRev (l.map (fun n : Nat => (n : Int))) = (cantorNat l : Int)
  | [] => rfl
  | [x] => rfl
  | x :: y :: r => by
    have ih := cantorRev_cast (y :: r)
    simp only [List.map_cons] at ih ⊢
    rw [cantorRev, cantorNat, ih, List.length_map]
    have : (x : Int) + ((y : Int) :: r.map (fun n : Nat => (n : Int))).sum
        = ((x + (y :: r).sum : Nat) : Int) := by
      rw [Nat.cast_add, cast_sum]
      simp
    rw [this, pyramideVolume_cast _ _ (by omega)]
    push_cast
    rfl

theorem cantorNat_bounds : ∀ l : List Nat, l ≠ [] →
    (l.sum + l.length - 1).choose l.length ≤ cantorNat l ∧
      cantorNat l < (l.sum + l.length).choose l.length
  | [], h => absurd rfl h
  | [x], _ => by simp [cantorNat]
  | x :: y :: r, _ => by
    have ih := cantorNat_bounds (y :: r) (by simp)
    have h1 : (x :: y :: r).length = r.length + 2 := by simp
    have h2 : (y :: r).length = r.length + 1 := by simp
    have h3 : (x :: y :: r).sum = x + (y :: r).sum := by rw [List.sum_cons]
    rw [h2] at ih
    rw [h1, h3, cantorNat]
    generalize (y :: r).sum = s at *
    constructor
    · omega
    · have e : x + s + (r.length + 2) = (x + s + (r.length + 1)) + 1 := by omega
      have e2 : x + s + (r.length + 2) - 1 = x + s + (r.length + 1) := by omega
      rw [e2, e, Nat.choose_succ_succ' (x + s + (r.length + 1)) (r.length + 1)]
      have e3 : r.length + 1 + 1 = r.length + 2 := rfl
      rw [e3]
      have mono : (s + (r.length + 1)).choose (r.length + 1) ≤
          (x + s + (r.length + 1)).choose (r.length + 1) := Nat.choose_le_choose _ (by omega)
      omega

theorem cantorNat_sum {l m : List Nat} (hl : l ≠ []) (hlen : l.length = m.length)
    (h : cantorNat l = cantorNat m) : l.sum = m.sum := by
  have hm : m ≠ [] := by
    intro h0
    rw [h0] at hlen
    exact hl (List.length_eq_zero_iff.1 hlen)
  have b1 := cantorNat_bounds l hl
  have b2 := cantorNat_bounds m hm
  have hpos : 0 < l.length := List.length_pos_iff.2 hl
  rcases Nat.lt_trichotomy l.sum m.sum with hlt | heq | hgt
  · have mono : (l.sum + l.length).choose l.length ≤ (m.sum + m.length - 1).choose m.length := by
      rw [← hlen]; exact Nat.choose_le_choose _ (by omega)
    omega
  · exact heq
  · have mono : (m.sum + m.length).choose m.length ≤ (l.sum + l.length - 1).choose l.length := by
      rw [← hlen]; exact Nat.choose_le_choose _ (by omega)
    omega

theorem cantorNat_inj : ∀ l m : List Nat, l.length = m.length → cantorNat l = cantorNat m → l = m
  | [], m, hlen, _ => by
    simp at hlen
    exact (List.length_eq_zero_iff.1 hlen.symm).symm
  | [x], m, hlen, h => by
    match m, hlen with
    | [y], _ => simpa [cantorNat] using h
  | x :: y :: r, m, hlen, h => by
    match m, hlen with
    | x' :: y' :: r', hlen =>
      have hs := cantorNat_sum (by simp) hlen h
      have hr : r.length = r'.length := by simpa using hlen
      have hs : x + (y :: r).sum = x' + (y' :: r').sum := by
        rw [← List.sum_cons, hs, List.sum_cons]
      rw [cantorNat, cantorNat, hs, hr] at h
      have ih := cantorNat_inj (y :: r) (y' :: r') (by simp [hr]) (by omega)
      rw [ih] at hs ⊢
      have : x = x' := by omega
      rw [this]

/-- The Cantor number is injective on coordinates with nonnegative entries. -/
theorem cantorNumber_inj {d : Nat} {a b : Coord d} (ha : ∀ i, 0 ≤ a.get i) (hb : ∀ i, 0 ≤ b.get i)
    (h : cantorNumber a = cantorNumber b) : a = b := by
  have conv : ∀ c : Coord d, (∀ i, 0 ≤ c.get i) →
      c.toList = (c.toList.map Int.toNat).map (fun n : Nat => (n : Int)) := by
    intro c hc
    rw [List.map_map]
    conv_lhs => rw [← List.map_id c.toList]
    apply List.map_congr_left
    intro x hx
    obtain ⟨n, hn, rfl⟩ := List.getElem_of_mem hx
    have := hc ⟨n, by rw [← c.len]; exact hn⟩
    simp only [id, Function.comp]
    rw [Int.toNat_of_nonneg]
    exact this
  unfold cantorNumber at h
  have hrev : ∀ c : Coord d, (∀ i, 0 ≤ c.get i) →
      cantorRev c.toList.reverse = (cantorNat (c.toList.map Int.toNat).reverse : Int) := by
    intro c hc
    conv_lhs => rw [conv c hc]
    rw [← List.map_reverse, cantorRev_cast]
  rw [hrev a ha, hrev b hb] at h
  have h2 := cantorNat_inj (a.toList.map Int.toNat).reverse (b.toList.map Int.toNat).reverse
    (by simp [a.len, b.len]) (by exact_mod_cast h)
  have h3 := List.reverse_injective h2
  have h4 : a.toList = b.toList := by rw [conv a ha, conv b hb, h3]
  cases a; cases b
  simp only at h4
  subst h4
  rfl

namespace BGraph

variable {d : Nat}

theorem idNum_inj (g : BGraph d) (h : g.Wf) (hc : ∀ i, 0 ≤ g.cl i) {o p : Coord d} (ho : g.Grid o)
    (hp : g.Grid p) (heq : (g.blk o).idNum = (g.blk p).idNum) : o = p := by
  rw [blk_idNum, blk_idNum] at heq
  have key : ∀ q : Coord d, g.Grid q → ∀ i,
      (((Roi.mk (g.totalWrite.offset + q) g.blockWrite.shape).offset - g.totalRead.offset).truncDiv
        (Roi.mk (g.totalWrite.offset + q) g.blockWrite.shape).shape).get i
        = (g.cl i + q.get i) / g.w i := by
    intro q hq i
    simp only [Coord.get_truncDiv, Coord.get_sub, Coord.get_add, g.tw_off h i]
    have h1 := hq i
    have h2 := hc i
    rw [show g.totalRead.offset.get i + g.cl i + q.get i - g.totalRead.offset.get i =
      g.cl i + q.get i by ring]
    exact Int.tdiv_eq_ediv_of_nonneg (by omega)
  have h1 := cantorNumber_inj (fun i => by
      rw [key o ho i]
      exact Int.ediv_nonneg (by have := hc i; have := ho i; omega) (le_of_lt (h.wpos i)))
    (fun i => by
      rw [key p hp i]
      exact Int.ediv_nonneg (by have := hc i; have := hp i; omega) (le_of_lt (h.wpos i))) heq
  apply Vec.ext_get; intro i
  have h2 := congrArg (fun v => Vec.get v i) h1
  simp only at h2
  rw [key o ho i, key p hp i] at h2
  obtain ⟨k, hk⟩ := (ho i).2.2
  obtain ⟨m, hm⟩ := (hp i).2.2
  have hw := h.wpos i
  rw [hk, hm, Int.add_mul_ediv_left _ _ (by omega), Int.add_mul_ediv_left _ _ (by omega)] at h2
  rw [hk, hm]
  have : k = m := by omega
  rw [this]

end BGraph

end Verif
