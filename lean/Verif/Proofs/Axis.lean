import Verif.Py.Basic
import Mathlib.Algebra.Ring.Divisibility.Basic
import Mathlib.Algebra.Order.Ring.Abs
import Mathlib.Algebra.Order.Ring.Int
import Mathlib.Algebra.Ring.Int.Defs

/-! # Integer facts along one axis -/

namespace Verif.Axis

theorem fdiv_eq {a w : Int} (hw : 0 < w) : a.fdiv w = a / w :=
  Int.fdiv_eq_ediv_of_nonneg _ (le_of_lt hw)
theorem fmod_eq {a w : Int} (hw : 0 < w) : a.fmod w = a % w :=
  Int.fmod_eq_emod_of_nonneg _ (le_of_lt hw)

/-- The stride along one axis in conflict mode, before the cut to the volume. -/
theorem stride_raw {m w : Int} (hw : 0 < w) :
    w ∣ ((m + w - 1).fdiv w + 1) * w ∧ m + w ≤ ((m + w - 1).fdiv w + 1) * w := by
  rw [fdiv_eq hw]
  refine ⟨Dvd.intro_left _ rfl, ?_⟩
  have := Int.lt_ediv_add_one_mul_self (m + w - 1) hw
  omega

theorem round_down {t w : Int} (hw : 0 < w) (ht : 0 ≤ t) :
    w ∣ t - t.fmod w ∧ 0 ≤ t - t.fmod w ∧ t - t.fmod w ≤ t ∧ t < t - t.fmod w + w := by
  rw [fmod_eq hw]
  have h1 := Int.emod_nonneg t (by omega : w ≠ 0)
  have h2 := Int.emod_lt_of_pos t hw
  have h3 : t % w ≤ t := by
    have := Int.mul_ediv_add_emod t w
    have := Int.ediv_nonneg ht (le_of_lt hw)
    nlinarith
  exact ⟨Int.dvd_self_sub_emod, by omega, by omega, by omega⟩

theorem round_up {t w : Int} (hw : 0 < w) (ht : 0 ≤ t) :
    w ∣ t + ((-t).fmod w).fmod w ∧ 0 ≤ t + ((-t).fmod w).fmod w ∧
      t ≤ t + ((-t).fmod w).fmod w ∧ t + ((-t).fmod w).fmod w < t + w := by
  simp only [fmod_eq hw, Int.emod_emod_of_dvd _ (dvd_refl w)]
  have h1 := Int.emod_nonneg (-t) (by omega : w ≠ 0)
  have h2 := Int.emod_lt_of_pos (-t) hw
  have h3 : w ∣ -t - (-t) % w := Int.dvd_self_sub_emod
  have h4 : t + (-t) % w = -(-t - (-t) % w) := by ring
  refine ⟨?_, by omega, by omega, by omega⟩
  rw [h4]
  exact (dvd_neg).2 h3

/-- What the proofs need to know about the stride `s` along one axis: write size `w`,
`u` = number of admissible offsets (`total + 1 - rounding`). -/
structure StrideOK (w s u : Int) : Prop where
  wpos : 0 < w
  dvd : w ∣ s
  nonneg : 0 ≤ s
  pos : 0 < u → 0 < s
  fit : 0 < u → s - w < u

theorem eq_of_dvd_sub {ls a b : Int} (h : ls ∣ a - b) (h1 : a - b < ls) (h2 : b - a < ls) :
    a = b := by
  by_contra hne
  have hab : a - b ≠ 0 := fun h => hne (by omega)
  have := Int.le_of_dvd (abs_pos.2 hab) ((dvd_abs _ _).2 h)
  rcases abs_cases (a - b) with ⟨h3, _⟩ | ⟨h3, _⟩ <;> omega

/-- Two multiples of `w` closer than `w` are equal. -/
theorem dvd_close {w a b : Int} (ha : w ∣ a) (hb : w ∣ b) (h1 : a - b < w) (h2 : b - a < w) :
    a = b := eq_of_dvd_sub (dvd_sub ha hb) h1 h2

/-- A multiple of `w` below a multiple of `w` is at least `w` below. -/
theorem dvd_lt {w a b : Int} (ha : w ∣ a) (hb : w ∣ b) (h : a < b) : a + w ≤ b := by
  by_contra hcon
  have := dvd_close ha hb (by omega) (by omega)
  omega

/-- `getOffsets` is: congruent to `op` modulo `ls`, and smaller than `ls` in absolute value. -/
theorem offsets_char {op ls c : Int} (h1 : op < ls) (h2 : -ls < op) :
    (ls ∣ c - op ∧ c < ls ∧ -ls < c) ↔
      c ∈ (if op < 0 then [op, op + ls] else if op = 0 then [op] else [op - ls, op]) := by
  have hls : 0 < ls := by omega
  constructor
  · rintro ⟨hd, h3, h4⟩
    split
    · rename_i hop
      by_cases hc : c < 0
      · have : c = op := eq_of_dvd_sub hd (by omega) (by omega)
        simp [this]
      · have h5 : ls ∣ c - (op + ls) := by
          have : c - (op + ls) = (c - op) - ls := by ring
          rw [this]; exact dvd_sub hd (dvd_refl _)
        have : c = op + ls := eq_of_dvd_sub h5 (by omega) (by omega)
        simp [this]
    · rename_i hop
      split
      · rename_i h0
        subst h0
        have : c = 0 := eq_of_dvd_sub hd (by omega) (by omega)
        simp [this]
      · by_cases hc : 0 < c
        · have : c = op := eq_of_dvd_sub hd (by omega) (by omega)
          simp [this]
        · have h5 : ls ∣ c - (op - ls) := by
            have : c - (op - ls) = (c - op) + ls := by ring
            rw [this]; exact dvd_add hd (dvd_refl _)
          have : c = op - ls := eq_of_dvd_sub h5 (by omega) (by omega)
          simp [this]
  · intro h
    split at h
    · rcases List.mem_pair.1 h with rfl | rfl
      · exact ⟨by simp, by omega, by omega⟩
      · exact ⟨by simp, by omega, by omega⟩
    · split at h
      · have := List.mem_singleton.1 h
        subst this
        exact ⟨by simp, by omega, by omega⟩
      · rcases List.mem_pair.1 h with rfl | rfl
        · exact ⟨by simp, by omega, by omega⟩
        · exact ⟨by simp, by omega, by omega⟩

/-- The representative of the residue class of `r` modulo `s` in the window `[a, a+s)`. -/
def rep (a s r : Int) : Int := a + (r - a) % s

theorem rep_spec {a s r : Int} (hs : 0 < s) :
    a ≤ rep a s r ∧ rep a s r < a + s ∧ s ∣ rep a s r - r := by
  unfold rep
  have h1 := Int.emod_nonneg (r - a) (by omega : s ≠ 0)
  have h2 := Int.emod_lt_of_pos (r - a) hs
  refine ⟨by omega, by omega, ?_⟩
  have h3 : s ∣ (r - a) - (r - a) % s := Int.dvd_self_sub_emod
  have h4 : a + (r - a) % s - r = -((r - a) - (r - a) % s) := by ring
  rw [h4]
  exact (dvd_neg).2 h3

theorem rep_eq {a s r x : Int} (hs : 0 < s) (h1 : a ≤ x) (h2 : x < a + s) (h3 : s ∣ x - r) :
    rep a s r = x := by
  obtain ⟨h4, h5, h6⟩ := rep_spec (a := a) (r := r) hs
  refine eq_of_dvd_sub (ls := s) ?_ (by omega) (by omega)
  have : rep a s r - x = (rep a s r - r) - (x - r) := by ring
  rw [this]
  exact dvd_sub h6 h3

/-- The window of one stride around two grid points closer than a stride, inside the range of
admissible offsets. -/
theorem window {w s u p q : Int} (ok : StrideOK w s u) (hp0 : 0 ≤ p) (hpu : p < u) (hpw : w ∣ p)
    (hq0 : 0 ≤ q) (hqu : q < u) (hqw : w ∣ q) (h1 : p - q < s) (h2 : q - p < s) :
    ∃ a, w ∣ a ∧ 0 ≤ a ∧ a + s - w < u ∧ a ≤ p ∧ p < a + s ∧ a ≤ q ∧ q < a + s := by
  have hu : 0 < u := by omega
  have hs := ok.pos hu
  have hf := ok.fit hu
  have hw := ok.wpos
  -- the last admissible grid point
  obtain ⟨L, hLw, hLu, hLu'⟩ : ∃ L, w ∣ L ∧ L < u ∧ u ≤ L + w := by
    refine ⟨(u - 1) - (u - 1) % w, Int.dvd_self_sub_emod, ?_, ?_⟩
    · have := Int.emod_nonneg (u - 1) (by omega : w ≠ 0)
      omega
    · have := Int.emod_lt_of_pos (u - 1) hw
      omega
  have hsL : s ≤ L + w := by
    have hd : w ∣ s - w := dvd_sub ok.dvd (dvd_refl _)
    by_contra hcon
    have := dvd_lt hLw hd (by omega)
    omega
  have hpL : p ≤ L := by
    by_contra hcon
    have := dvd_lt hLw hpw (by omega)
    omega
  have hqL : q ≤ L := by
    by_contra hcon
    have := dvd_lt hLw hqw (by omega)
    omega
  by_cases hc : min p q ≤ L + w - s
  · refine ⟨min p q, ?_, by omega, by omega, by omega, by omega, by omega, by omega⟩
    rcases min_choice p q with h | h <;> rw [h] <;> assumption
  · exact ⟨L + w - s, dvd_sub (dvd_add hLw (dvd_refl _)) ok.dvd, by omega, by omega, by omega,
      by omega, by omega, by omega⟩

/-- Representatives of grid residues stay admissible. -/
theorem rep_admissible {w s u a r : Int} (ok : StrideOK w s u) (hu : 0 < u) (ha : w ∣ a)
    (ha0 : 0 ≤ a) (hau : a + s - w < u) (hr : w ∣ r) :
    0 ≤ rep a s r ∧ rep a s r < u ∧ w ∣ rep a s r := by
  obtain ⟨h1, h2, h3⟩ := rep_spec (a := a) (r := r) (ok.pos hu)
  have hd : w ∣ rep a s r := by
    have h4 := dvd_trans ok.dvd h3
    have : rep a s r = (rep a s r - r) + r := by ring
    rw [this]
    exact dvd_add h4 hr
  have h5 := dvd_lt hd (dvd_add ha ok.dvd) h2
  exact ⟨by omega, by omega, hd⟩

/-- The closed-form block count along one axis is the length of the range. -/
theorem count_eq {lo t s r : Int} (hs : 0 < s) :
    (t - lo + s - r).fdiv s = ((t + 1 - r) - lo + s - 1) / s := by
  rw [fdiv_eq hs]
  congr 1
  ring

/-- `floor`/`ceil` alignment: the grid points between the aligned bounds are those whose cell
meets `[b, e)`. -/
theorem aligned_iff {b e w o : Int} (hw : 0 < w) (ho : w ∣ o) :
    (b.fdiv w * w ≤ o ∧ o < -((-e).fdiv w) * w) ↔ (b < o + w ∧ o < e) := by
  simp only [fdiv_eq hw]
  obtain ⟨k, rfl⟩ := ho
  constructor
  · rintro ⟨h1, h2⟩
    have h3 : b / w ≤ k := by
      by_contra hcon
      have : (k + 1) * w ≤ b / w * w := by
        apply Int.mul_le_mul_of_nonneg_right <;> omega
      nlinarith
    have h4 : k < -(-e / w) := by
      by_contra hcon
      have : -(-e / w) * w ≤ k * w := by
        apply Int.mul_le_mul_of_nonneg_right <;> omega
      nlinarith
    constructor
    · have := Int.lt_ediv_add_one_mul_self b hw
      nlinarith
    · have h5 : -e / w < -k := by omega
      rw [Int.ediv_lt_iff_lt_mul hw] at h5
      nlinarith
  · rintro ⟨h1, h2⟩
    constructor
    · have h3 : b / w < k + 1 := by
        rw [Int.ediv_lt_iff_lt_mul hw]; nlinarith
      have : b / w * w ≤ k * w := by
        apply Int.mul_le_mul_of_nonneg_right <;> omega
      nlinarith
    · have h3 : -e / w < -k := by
        rw [Int.ediv_lt_iff_lt_mul hw]; nlinarith
      have : (k + 1) * w ≤ -(-e / w) * w := by
        apply Int.mul_le_mul_of_nonneg_right <;> omega
      nlinarith

end Verif.Axis
