import Verif.Spec.Count
import Mathlib.Data.List.Nodup
import Mathlib.Data.List.Count

/-! # Lemmas about counting -/

namespace Verif

open Spec

variable {N T K : Type}

theorem countP_split (p q : N → Bool) (n : N) (hq : ∀ x, x ≠ n → q x = p x) (hpn : p n = false)
    (hqn : q n = true) : ∀ l : List N, l.Nodup → n ∈ l → l.countP q = l.countP p + 1
  | [], _, h => absurd h List.not_mem_nil
  | x :: l, hnd, h => by
    obtain ⟨hx, hnd'⟩ := List.nodup_cons.1 hnd
    rw [List.countP_cons, List.countP_cons]
    rcases List.mem_cons.1 h with rfl | h
    · rw [hqn, hpn]
      have : l.countP q = l.countP p := List.countP_congr (fun y hy => by
        rw [hq y (fun e => hx (e ▸ hy))])
      simp [this]
    · have := countP_split p q n hq hpn hqn l hnd' h
      rw [this, hq x (fun e => hx (e ▸ h))]
      omega

variable {g : DGraph N T K}

theorem cnt_congr {t : T} {P Q : N → Prop} (h : ∀ n ∈ g.nodes, g.task n = t → (P n ↔ Q n)) :
    cnt g t P = cnt g t Q := by
  unfold cnt
  congr 1
  apply List.countP_congr
  intro x hx
  simp only [decide_eq_true_eq]
  constructor
  · rintro ⟨h1, h2⟩; exact ⟨h1, (h x hx h1).1 h2⟩
  · rintro ⟨h1, h2⟩; exact ⟨h1, (h x hx h1).2 h2⟩

theorem cnt_false (t : T) : cnt g t (fun _ => False) = 0 := by
  unfold cnt
  simp

theorem cnt_nonneg (t : T) (P : N → Prop) : 0 ≤ cnt g t P := by
  unfold cnt
  exact Int.natCast_nonneg _

/-- Adding one node. -/
theorem cnt_insert [DecidableEq T] (hg : g.OK) (t : T) (P : N → Prop) {n : N} (hn : n ∈ g.nodes)
    (hp : ¬ P n) :
    cnt g t (fun x => P x ∨ x = n) = cnt g t P + if t = g.task n then 1 else 0 := by
  by_cases ht : t = g.task n
  · rw [if_pos ht]
    unfold cnt
    rw [countP_split (fun x => @decide (g.task x = t ∧ P x) (Classical.propDecidable _)) _ n ?_ ?_ ?_ g.nodes hg.nodes_nodup hn]
    · push_cast; ring
    · intro x hx; simp [hx]
    · simp [hp]
    · simp [ht]
  · rw [if_neg ht, add_zero]
    apply cnt_congr
    intro x _ hx
    constructor
    · rintro (h | rfl)
      · exact h
      · exact absurd hx.symm ht
    · exact Or.inl

/-- Removing one node. -/
theorem cnt_remove [DecidableEq T] (hg : g.OK) (t : T) (P : N → Prop) {n : N} (hn : n ∈ g.nodes)
    (hp : P n) :
    cnt g t (fun x => P x ∧ x ≠ n) = cnt g t P - if t = g.task n then 1 else 0 := by
  have h := cnt_insert hg t (fun x => P x ∧ x ≠ n) hn (by simp)
  have h2 : cnt g t (fun x => (P x ∧ x ≠ n) ∨ x = n) = cnt g t P := by
    apply cnt_congr
    intro x _ _
    constructor
    · rintro (h | rfl)
      · exact h.1
      · exact hp
    · intro hx
      by_cases hxn : x = n
      · exact Or.inr hxn
      · exact Or.inl ⟨hx, hxn⟩
  omega

/-- The length of a duplicate-free list of exactly the blocks with a property. -/
theorem cnt_eq_length [DecidableEq N] (hg : g.OK) (t : T) (P : N → Prop) {l : List N} (hl : l.Nodup)
    (hm : ∀ n, n ∈ l ↔ n ∈ g.nodes ∧ g.task n = t ∧ P n) : cnt g t P = l.length := by
  unfold cnt
  rw [List.countP_eq_length_filter]
  congr 1
  apply List.Perm.length_eq
  apply (List.perm_ext_iff_of_nodup (hg.nodes_nodup.filter _) hl).2
  intro n
  rw [List.mem_filter, hm]
  simp

theorem cnt_eq_zero {t : T} {P : N → Prop} : cnt g t P = 0 ↔ ∀ n ∈ g.nodes, g.task n = t → ¬ P n := by
  unfold cnt
  rw [Int.natCast_eq_zero, List.countP_eq_zero]
  constructor
  · intro h n hn ht hp
    exact h n hn (by simp [ht, hp])
  · intro h n hn hp
    simp only [decide_eq_true_eq] at hp
    exact h n hn hp.1 hp.2

theorem cnt_le {t : T} {P Q : N → Prop} (h : ∀ n ∈ g.nodes, g.task n = t → P n → Q n) :
    cnt g t P ≤ cnt g t Q := by
  unfold cnt
  have := List.countP_mono_left (l := g.nodes)
    (p := fun n => @decide (g.task n = t ∧ P n) (Classical.propDecidable _))
    (q := fun n => @decide (g.task n = t ∧ Q n) (Classical.propDecidable _)) (by
      intro x hx hp
      simp only [decide_eq_true_eq] at hp ⊢
      exact ⟨hp.1, h x hx hp.1 hp.2⟩)
  exact_mod_cast this

/-- Disjoint properties. -/
theorem cnt_or {t : T} {P Q : N → Prop} (h : ∀ n, P n → ¬ Q n) :
    cnt g t (fun n => P n ∨ Q n) = cnt g t P + cnt g t Q := by
  unfold cnt
  rw [← Nat.cast_add]
  congr 1
  induction g.nodes with
  | nil => rfl
  | cons x l ih =>
    rw [List.countP_cons, List.countP_cons, List.countP_cons, ih]
    by_cases ht : g.task x = t
    · by_cases hp : P x
      · have hq := h x hp
        simp [ht, hp, hq]; omega
      · by_cases hq : Q x <;> simp [ht, hp, hq]
        omega
    · simp [ht]

theorem cntAll_le {P Q : N → Prop} (h : ∀ n, P n → Q n) : cntAll g P ≤ cntAll g Q :=
  List.countP_mono_left fun x _ hx => by simpa using h x (by simpa using hx)

/-- One more node. -/
theorem cntAll_add (hg : g.OK) {P Q : N → Prop} {n : N} (hn : n ∈ g.nodes) (hp : ¬ P n)
    (hpq : ∀ x, x ≠ n → (Q x ↔ P x)) (hq : Q n) : cntAll g Q = cntAll g P + 1 := by
  unfold cntAll
  apply countP_split _ _ n _ _ _ g.nodes hg.nodes_nodup hn
  · intro x hx; simp [hpq x hx]
  · simp [hp]
  · simp [hq]

end Verif
