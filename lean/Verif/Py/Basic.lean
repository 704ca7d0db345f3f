import Mathlib.Data.List.Basic
import Mathlib.Data.List.Nodup
import Mathlib.Data.List.Range
import Mathlib.Data.Int.Basic
import Mathlib.Tactic.Linarith
import Mathlib.Tactic.Ring

/-! # Python helpers: exceptions, `range`, `itertools.product`. -/

namespace Verif

/-- The Python exceptions that can occur in the modelled code, plus two model-only values:
`outOfFuel` (a loop did not end within its fuel; theorems show it never occurs) and
`stopIteration` (a generator was exhausted). -/
inductive PyErr where
  | assertion
  | keyError
  | indexError
  | valueError
  | runtimeError
  | notImplemented
  | stopIteration
  | attributeError
  | typeError
  | structError
  /-- the operating system refuses something -/
  | osError
  /-- `queue.Empty` -/
  | queueEmpty
  /-- an exception of user code that is raised again -/
  | userException
  /-- `UnexpectedMessage`, `messages/exceptions.py` -/
  | unexpectedMessage
  | outOfFuel
  deriving DecidableEq, Repr

/-- Python's `range(a, b, s)` as a list, for a positive step `s`.
Simplification: steps `≤ 0` are not used by the modelled code when the write shape is
positive; the value is then meaningless. -/
def pyRange (a b s : Int) : List Int :=
  (List.range ((b - a + s - 1) / s).toNat).map (fun k : Nat => a + (k : Int) * s)

/-- Python's `itertools.product(*ls)`: the last list varies fastest. -/
def pyProduct {α : Type} : List (List α) → List (List α)
  | [] => [[]]
  | l :: ls => l.flatMap (fun a => (pyProduct ls).map (fun r => a :: r))

theorem pyProduct_length {α : Type} :
    ∀ (ls : List (List α)) (r : List α), r ∈ pyProduct ls → r.length = ls.length
  | [], r, h => by
    simp [pyProduct] at h
    simp [h]
  | l :: ls, r, h => by
    simp only [pyProduct, List.mem_flatMap, List.mem_map] at h
    obtain ⟨a, _, r', hr', rfl⟩ := h
    simp [pyProduct_length ls r' hr']

theorem mem_pyProduct {α : Type} :
    ∀ (ls : List (List α)) (r : List α), r ∈ pyProduct ls ↔ List.Forall₂ (· ∈ ·) r ls
  | [], r => by
    simp [pyProduct]
  | l :: ls, r => by
    simp only [pyProduct, List.mem_flatMap, List.mem_map]
    constructor
    · rintro ⟨a, ha, r', hr', rfl⟩
      exact List.Forall₂.cons ha ((mem_pyProduct ls r').1 hr')
    · intro h
      cases h with
      | cons ha ht => exact ⟨_, ha, _, (mem_pyProduct ls _).2 ht, rfl⟩

theorem nodup_pyProduct {α : Type} :
    ∀ (ls : List (List α)), (∀ l ∈ ls, l.Nodup) → (pyProduct ls).Nodup
  | [], _ => by simp [pyProduct]
  | l :: ls, h => by
    have ih := nodup_pyProduct ls (fun x hx => h x (List.mem_cons_of_mem _ hx))
    have hl := h l List.mem_cons_self
    simp only [pyProduct]
    rw [List.nodup_flatMap]
    refine ⟨fun a _ => ih.map (fun x y hxy => (List.cons.inj hxy).2), ?_⟩
    refine hl.imp ?_
    intro a b hab
    simp only [Function.onFun, List.disjoint_left, List.mem_map]
    rintro x ⟨r, _, rfl⟩ ⟨r', _, hr'⟩
    exact hab (List.cons.inj hr').1.symm

theorem length_pyProduct {α : Type} :
    ∀ (ls : List (List α)), (pyProduct ls).length = (ls.map List.length).prod
  | [] => by simp [pyProduct]
  | l :: ls => by
    simp only [pyProduct, List.length_flatMap, List.length_map, List.map_cons, List.prod_cons,
      length_pyProduct ls, List.map_const']
    simp

theorem pyRange_count (a b s : Int) (k : Nat) (hs : 0 < s) :
    k < ((b - a + s - 1) / s).toNat ↔ a + (k : Int) * s < b := by
  rw [Int.lt_toNat, Int.lt_iff_add_one_le, Int.le_ediv_iff_mul_le hs]
  constructor <;> intro h <;> nlinarith

theorem mem_pyRange {a b s x : Int} (hs : 0 < s) :
    x ∈ pyRange a b s ↔ a ≤ x ∧ x < b ∧ s ∣ x - a := by
  simp only [pyRange, List.mem_map, List.mem_range, pyRange_count a b s _ hs]
  constructor
  · rintro ⟨k, hk, rfl⟩
    refine ⟨?_, hk, ⟨k, by ring⟩⟩
    have : 0 ≤ (k : Int) * s := by positivity
    linarith
  · rintro ⟨h1, h2, c, hc⟩
    have hc0 : 0 ≤ c := by
      by_contra hcon
      have : s * c < 0 := Int.mul_neg_of_pos_of_neg hs (by omega)
      omega
    refine ⟨c.toNat, ?_, ?_⟩
    · rw [Int.toNat_of_nonneg hc0]; nlinarith
    · rw [Int.toNat_of_nonneg hc0]; nlinarith

theorem nodup_pyRange {a b s : Int} (hs : 0 < s) : (pyRange a b s).Nodup := by
  refine List.nodup_range.map ?_
  intro x y hxy
  have : (x : Int) * s = y * s := by simpa using hxy
  exact_mod_cast Int.eq_of_mul_eq_mul_right (by omega) this

theorem length_pyRange (a b s : Int) : (pyRange a b s).length = ((b - a + s - 1) / s).toNat := by
  simp [pyRange]

/-- With `s` positive, `range(a, b, s)` is empty iff `b ≤ a`. -/
theorem pyRange_eq_nil {a b s : Int} (hs : 0 < s) : pyRange a b s = [] ↔ b ≤ a := by
  constructor
  · intro h
    by_contra hcon
    have : a ∈ pyRange a b s := (mem_pyRange hs).2 ⟨le_refl _, by omega, by simp⟩
    simp [h] at this
  · intro h
    rw [List.eq_nil_iff_forall_not_mem]
    intro x hx
    have := (mem_pyRange hs).1 hx
    omega

end Verif
