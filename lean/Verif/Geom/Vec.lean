import Verif.Py.Basic

/-! # Coordinates: integer vectors of a fixed dimension

`funlib.geometry.Coordinate` is a tuple of ints with element-wise arithmetic.  The dimension is
carried in the type, so "dimensions must match" assertions cannot fail.  `None` entries
(unbounded coordinates) are not modelled. -/

namespace Verif

/-- A list of fixed length `d`. -/
structure Vec (α : Type) (d : Nat) where
  toList : List α
  len : toList.length = d
  deriving DecidableEq

namespace Vec

variable {α β γ : Type} {d : Nat}

/-- The `i`-th entry. -/
def get (v : Vec α d) (i : Fin d) : α := v.toList[i.val]'(by rw [v.len]; exact i.isLt)

theorem ext_get {a b : Vec α d} (h : ∀ i, a.get i = b.get i) : a = b := by
  cases a with
  | mk la ha =>
    cases b with
    | mk lb hb =>
      have : la = lb := by
        apply List.ext_getElem (by omega)
        intro i h1 h2
        exact h ⟨i, by omega⟩
      subst this
      rfl

theorem ext_iff_get {a b : Vec α d} : a = b ↔ ∀ i, a.get i = b.get i :=
  ⟨fun h _ => by rw [h], ext_get⟩

/-- Element-wise function application. -/
def map (f : α → β) (a : Vec α d) : Vec β d := ⟨a.toList.map f, by simp [a.len]⟩

/-- Element-wise binary operation. -/
def zipWith (f : α → β → γ) (a : Vec α d) (b : Vec β d) : Vec γ d :=
  ⟨List.zipWith f a.toList b.toList, by simp [a.len, b.len]⟩

/-- `(x,) * dims`. -/
def const (d : Nat) (x : α) : Vec α d := ⟨List.replicate d x, by simp⟩

@[simp] theorem get_map (f : α → β) (a : Vec α d) (i : Fin d) :
    (a.map f).get i = f (a.get i) := by
  simp [map, get]

@[simp] theorem get_zipWith (f : α → β → γ) (a : Vec α d) (b : Vec β d) (i : Fin d) :
    (zipWith f a b).get i = f (a.get i) (b.get i) := by
  simp [zipWith, get]

@[simp] theorem get_const (x : α) (i : Fin d) : (const d x).get i = x := by
  simp [const, get]

/-- Build a vector from a function. -/
def ofFn (f : Fin d → α) : Vec α d := ⟨List.ofFn f, by simp⟩

@[simp] theorem get_ofFn (f : Fin d → α) (i : Fin d) : (ofFn f).get i = f i := by
  simp [ofFn, get]

/-- Python's `all(p(a, b) for a, b in zip(...))`. -/
def all (p : α → Bool) (a : Vec α d) : Bool := a.toList.all p

theorem all_iff (p : α → Bool) (a : Vec α d) : a.all p = true ↔ ∀ i, p (a.get i) = true := by
  simp only [all, List.all_eq_true]
  constructor
  · intro h i
    exact h _ (List.getElem_mem _)
  · intro h x hx
    obtain ⟨n, hn, rfl⟩ := List.getElem_of_mem hx
    exact h ⟨n, by rw [← a.len]; exact hn⟩

/-- Python's `any`. -/
def any (p : α → Bool) (a : Vec α d) : Bool := a.toList.any p

theorem any_iff (p : α → Bool) (a : Vec α d) : a.any p = true ↔ ∃ i, p (a.get i) = true := by
  simp only [any, List.any_eq_true]
  constructor
  · rintro ⟨x, hx, hp⟩
    obtain ⟨n, hn, rfl⟩ := List.getElem_of_mem hx
    exact ⟨⟨n, by rw [← a.len]; exact hn⟩, hp⟩
  · rintro ⟨i, hp⟩
    exact ⟨_, List.getElem_mem _, hp⟩

end Vec

/-- `itertools.product(*ls)` for a vector of lists, giving vectors. -/
def vecProduct {α : Type} {d : Nat} (ls : Vec (List α) d) : List (Vec α d) :=
  (pyProduct ls.toList).pmap (fun r h => ⟨r, h⟩)
    (fun r hr => by rw [pyProduct_length _ r hr, ls.len])

theorem forall₂_iff_get {α β : Type} {d : Nat} (R : α → β → Prop) (a : Vec α d) (b : Vec β d) :
    List.Forall₂ R a.toList b.toList ↔ ∀ i, R (a.get i) (b.get i) := by
  rw [List.forall₂_iff_get]
  constructor
  · rintro ⟨_, h⟩ i
    exact h i.val (by rw [a.len]; exact i.isLt) (by rw [b.len]; exact i.isLt)
  · intro h
    refine ⟨by rw [a.len, b.len], ?_⟩
    intro i h1 h2
    exact h ⟨i, by rw [← a.len]; exact h1⟩

theorem mem_vecProduct {α : Type} {d : Nat} (ls : Vec (List α) d) (v : Vec α d) :
    v ∈ vecProduct ls ↔ ∀ i, v.get i ∈ ls.get i := by
  simp only [vecProduct, List.mem_pmap]
  rw [← forall₂_iff_get (· ∈ ·), ← mem_pyProduct]
  constructor
  · rintro ⟨r, hr, rfl⟩
    exact hr
  · intro h
    exact ⟨v.toList, h, rfl⟩

theorem nodup_vecProduct {α : Type} {d : Nat} (ls : Vec (List α) d)
    (h : ∀ i, (ls.get i).Nodup) : (vecProduct ls).Nodup := by
  refine List.Nodup.pmap ?_ (nodup_pyProduct _ ?_)
  · intro a ha b hb hab
    exact congrArg Vec.toList hab
  · intro l hl
    obtain ⟨n, hn, rfl⟩ := List.getElem_of_mem hl
    exact h ⟨n, by rw [← ls.len]; exact hn⟩

theorem length_vecProduct {α : Type} {d : Nat} (ls : Vec (List α) d) :
    (vecProduct ls).length = (ls.toList.map List.length).prod := by
  simp [vecProduct, length_pyProduct]

/-- `funlib.geometry.Coordinate`. -/
abbrev Coord (d : Nat) := Vec Int d

namespace Coord

variable {d : Nat}

instance : Add (Coord d) := ⟨Vec.zipWith (· + ·)⟩
instance : Sub (Coord d) := ⟨Vec.zipWith (· - ·)⟩
instance : Mul (Coord d) := ⟨Vec.zipWith (· * ·)⟩
instance : Neg (Coord d) := ⟨Vec.map (- ·)⟩

/-- `a // b` (floor division, element-wise). -/
def floorDiv (a b : Coord d) : Coord d := Vec.zipWith Int.fdiv a b
/-- `a % b` (sign of the divisor, element-wise). -/
def mod (a b : Coord d) : Coord d := Vec.zipWith Int.fmod a b
/-- `a / b` on Coordinates: true division followed by `int()`, i.e. truncation. -/
def truncDiv (a b : Coord d) : Coord d := Vec.zipWith Int.tdiv a b
/-- element-wise `max`. -/
def max (a b : Coord d) : Coord d := Vec.zipWith Max.max a b
/-- element-wise `min`. -/
def min (a b : Coord d) : Coord d := Vec.zipWith Min.min a b

@[simp] theorem get_add (a b : Coord d) (i : Fin d) : (a + b).get i = a.get i + b.get i :=
  Vec.get_zipWith _ a b i
@[simp] theorem get_sub (a b : Coord d) (i : Fin d) : (a - b).get i = a.get i - b.get i :=
  Vec.get_zipWith _ a b i
@[simp] theorem get_mul (a b : Coord d) (i : Fin d) : (a * b).get i = a.get i * b.get i :=
  Vec.get_zipWith _ a b i
@[simp] theorem get_neg (a : Coord d) (i : Fin d) : (-a).get i = -a.get i :=
  Vec.get_map _ a i
@[simp] theorem get_floorDiv (a b : Coord d) (i : Fin d) :
    (a.floorDiv b).get i = (a.get i).fdiv (b.get i) := Vec.get_zipWith _ a b i
@[simp] theorem get_mod (a b : Coord d) (i : Fin d) :
    (a.mod b).get i = (a.get i).fmod (b.get i) := Vec.get_zipWith _ a b i
@[simp] theorem get_truncDiv (a b : Coord d) (i : Fin d) :
    (a.truncDiv b).get i = (a.get i).tdiv (b.get i) := Vec.get_zipWith _ a b i
@[simp] theorem get_max (a b : Coord d) (i : Fin d) :
    (a.max b).get i = Max.max (a.get i) (b.get i) := Vec.get_zipWith _ a b i
@[simp] theorem get_min (a b : Coord d) (i : Fin d) :
    (a.min b).get i = Min.min (a.get i) (b.get i) := Vec.get_zipWith _ a b i

end Coord

end Verif
