import Verif.Spec.Order
import Verif.Proofs.ReadySurface
import Mathlib.Data.List.Nodup

/-! # The ready surface does not look at the order of unrelated nodes (lemmas) -/

namespace Verif
open Spec

namespace Order

variable {α β : Type}

theorem precedes_head {x y : α} {l : List α} (h : y ∈ l) : Precedes (x :: l) x y := by
  obtain ⟨a, b, rfl⟩ := List.append_of_mem h
  exact ⟨[], a, b, by simp⟩

theorem precedes_cons {x y z : α} {l : List α} (h : Precedes l x y) : Precedes (z :: l) x y := by
  obtain ⟨a, b, c, rfl⟩ := h
  exact ⟨z :: a, b, c, by simp⟩

theorem precedes_iff {l : List α} {x y : α} : Precedes l x y ↔ [x, y].Sublist l := by
  constructor
  · rintro ⟨a, b, c, rfl⟩
    have h1 : [x].Sublist (a ++ x :: b) := by simp
    have h2 : [y].Sublist (y :: c) := by simp
    exact h1.append h2
  · intro h
    induction l with
    | nil => cases h
    | cons z l ih =>
      cases h with
      | cons _ h => exact precedes_cons (ih h)
      | cons_cons _ h => exact precedes_head (List.singleton_sublist.1 h)

theorem precedes_mem {l : List α} {x y : α} (h : Precedes l x y) : x ∈ l ∧ y ∈ l := by
  obtain ⟨a, b, c, rfl⟩ := h
  simp

theorem precedes_of_cons {l : List α} {x y z : α} (h : Precedes (z :: l) x y) (hne : x ≠ z) : Precedes l x y := by
  rw [precedes_iff] at h ⊢
  cases h with
  | cons _ h => exact h
  | cons_cons _ h => exact absurd rfl hne

theorem precedes_remove {a c : List α} {x y z : α} (h : Precedes (a ++ z :: c) x y) (hx : x ≠ z) (hy : y ≠ z) :
    Precedes (a ++ c) x y := by
  rw [precedes_iff] at h ⊢
  classical
  have h3 : ([x, y].filter (fun w => decide (w ≠ z))).Sublist ((a ++ z :: c).filter (fun w => decide (w ≠ z))) :=
    h.filter _
  rw [List.filter_cons, if_pos (by simpa using hx), List.filter_cons, if_pos (by simpa using hy), List.filter_nil,
    List.filter_append, List.filter_cons, if_neg (by simp)] at h3
  exact h3.trans ((List.filter_sublist).append (List.filter_sublist))

theorem precedes_asymm {l : List α} {x y : α} (hl : l.Nodup) (h : Precedes l x y) : ¬ Precedes l y x := by
  induction l with
  | nil => obtain ⟨a, b, c, e⟩ := h; simp at e
  | cons z l ih =>
    obtain ⟨hz, hl⟩ := List.nodup_cons.1 hl
    intro h2
    rcases eq_or_ne x z with rfl | hx
    · rcases eq_or_ne y x with rfl | hy
      · rw [precedes_iff] at h
        cases h with
        | cons _ h => exact hz (h.subset (by simp))
        | cons_cons _ h => exact hz (h.subset (by simp))
      · exact hz (precedes_mem (precedes_of_cons h2 hy)).2
    · rcases eq_or_ne y z with rfl | hy
      · exact hz (precedes_mem (precedes_of_cons h hx)).2
      · exact ih hl (precedes_of_cons h hx) (precedes_of_cons h2 hy)

theorem precedes_total {l : List α} {x y : α} (hx : x ∈ l) (hy : y ∈ l) (hne : x ≠ y) : Precedes l x y ∨ Precedes l y x := by
  induction l with
  | nil => simp at hx
  | cons z l ih =>
    rcases List.mem_cons.1 hx with rfl | hx'
    · rcases List.mem_cons.1 hy with rfl | hy'
      · exact absurd rfl hne
      · exact Or.inl (precedes_head hy')
    · rcases List.mem_cons.1 hy with rfl | hy'
      · exact Or.inr (precedes_head hx')
      · exact (ih hx' hy').imp precedes_cons precedes_cons

/-- Steps that commute may be taken in any order in which the other ones keep theirs. -/
theorem foldl_reorder (f : β → α → β) (D : α → α → Prop) (I : β → α → Prop)
    (hI : ∀ b x y, x ≠ y → I b x → I b y → I (f b x) y)
    (hc : ∀ b x y, x ≠ y → I b x → I b y → ¬ D x y → f (f b x) y = f (f b y) x) :
    ∀ (l l' : List α), l.Perm l' → l.Nodup → (∀ x y, D x y → Precedes l x y → Precedes l' x y) →
      ∀ b, (∀ x ∈ l, I b x) → l.foldl f b = l'.foldl f b := by
  intro l
  induction l with
  | nil => intro l' hp _ _ b _; rw [List.nil_perm.1 hp]
  | cons x l ih =>
    intro l' hp hn hD b hb
    obtain ⟨a, c, rfl⟩ := List.append_of_mem (hp.subset (List.mem_cons_self (a := x)))
    have hp2 : l.Perm (a ++ c) := (List.perm_cons x).1 (hp.trans List.perm_middle)
    obtain ⟨hx, hl⟩ := List.nodup_cons.1 hn
    have hn' : (a ++ x :: c).Nodup := hp.nodup_iff.1 hn
    have hmove : ∀ (a : List α) (b : β), (∀ y ∈ a, y ≠ x ∧ ¬ D x y) → a.Nodup → (∀ y ∈ x :: a, I b y) →
        (a ++ x :: c).foldl f b = (a ++ c).foldl f (f b x) := by
      intro a
      induction a with
      | nil => intro b _ _ _; rfl
      | cons y a ih =>
        intro b h1 h2 h3
        obtain ⟨hya, ha⟩ := List.nodup_cons.1 h2
        have hyx := h1 y List.mem_cons_self
        have e := hc b x y (Ne.symm hyx.1) (h3 x List.mem_cons_self) (h3 y (by simp)) hyx.2
        rw [List.cons_append, List.foldl_cons, List.cons_append, List.foldl_cons, e]
        refine ih (f b y) (fun z hz => h1 z (List.mem_cons_of_mem _ hz)) ha ?_
        intro z hz
        rcases List.mem_cons.1 hz with rfl | hz
        · exact hI b y z hyx.1 (h3 y (by simp)) (h3 z List.mem_cons_self)
        · exact hI b y z (fun e => hya (e ▸ hz)) (h3 y (by simp)) (h3 z (by simp [hz]))
    have hax : ∀ y ∈ a, y ≠ x ∧ ¬ D x y := by
      intro y hy
      have hne : y ≠ x := fun e => by
        subst e
        exact (List.nodup_middle.1 hn' |> List.nodup_cons.1).1 (List.mem_append_left _ hy)
      refine ⟨hne, fun hd => ?_⟩
      have h1 : Precedes (a ++ x :: c) x y :=
        hD x y hd (precedes_head (hp2.symm.subset (List.mem_append_left _ hy)))
      have h2 : Precedes (a ++ x :: c) y x := by
        obtain ⟨a1, a2, rfl⟩ := List.append_of_mem hy
        exact ⟨a1, a2, c, by simp⟩
      exact precedes_asymm hn' h1 h2
    rw [List.foldl_cons, hmove a b hax ((List.nodup_append.1 hn').1) (fun y hy => by
      rcases List.mem_cons.1 hy with rfl | hy
      · exact hb y List.mem_cons_self
      · exact hb y (hp.symm.subset (List.mem_append_left _ hy)))]
    refine ih (a ++ c) hp2 hl (fun u v hd hbe => ?_) (f b x) (fun y hy => ?_)
    · have h1 := hD u v hd (precedes_cons hbe)
      exact precedes_remove h1 (fun e => hx (e ▸ (precedes_mem hbe).1)) (fun e => hx (e ▸ (precedes_mem hbe).2))
    · exact hI b x y (fun e => hx (e ▸ hy)) (hb x List.mem_cons_self) (hb y (List.mem_cons_of_mem _ hy))

end Order
end Verif
