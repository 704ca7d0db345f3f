import Verif.Model.TaskObjects
import Mathlib.Logic.Relation
import Mathlib.Order.WellFounded

/-! # Lemmas about collecting tasks, `Model/TaskObjects` -/

namespace Verif

/-- Passes of the loop, one after the other. -/
inductive Passes {O : Type} (ob : TaskObjs O) : Coll O → Coll O → Prop
  | refl (s : Coll O) : Passes ob s s
  | step {s s₁ s₂ : Coll O} : Passes ob s s₁ → s₁.pass ob = .ok (some s₂) → Passes ob s s₂

theorem Passes.head {O : Type} {ob : TaskObjs O} {s s₁ s₂ : Coll O} (h : Passes ob s₁ s₂) (e : s.pass ob = .ok (some s₁)) :
    Passes ob s s₂ := by
  induction h with
  | refl => exact .step (.refl _) e
  | step _ h3 ih => exact .step ih h3

namespace Coll

variable {O : Type} {ob : TaskObjs O} {s s' : Coll O} {heap : Nat → List O} {next : Nat}

/-- What holds before every pass if `tasks` is a list: the lists that existed before are as they were. -/
structure Good (heap : Nat → List O) (next : Nat) (s : Coll O) : Prop where
  list : ∃ a, s.tasks = .list a
  le : next ≤ s.next
  same : ∀ a < next, s.heap a = heap a

theorem pass_good (ho : ∀ o, ob.ups o < next) (h : Good heap next s) {t : O} {rest : List O} (he : s.elems = t :: rest) :
    ∃ s', s.pass ob = .ok (some s') ∧ Good heap next s' ∧ s'.elems = rest ++ heap (ob.ups t) ∧
      (ob.tid t ∉ s.seen → s'.seen = ob.tid t :: s.seen ∧ s'.all = s.all ++ [t]) ∧
      (ob.tid t ∈ s.seen → s'.seen = s.seen ∧ s'.all = s.all) := by
  obtain ⟨⟨a, ha⟩, hle, hsame⟩ := h
  have hlt := ho t
  have hne : ob.ups t ≠ s.next := by omega
  have key : ∀ (seen : List Nat) (all : List O), Good heap next ⟨fun c => if c = s.next then
      (if s.next = s.next then rest else s.heap s.next) ++ (if ob.ups t = s.next then rest else s.heap (ob.ups t))
        else if c = s.next then rest else s.heap c, s.next + 1, .list s.next, seen, all⟩ := by
    intro seen all
    refine ⟨⟨_, rfl⟩, by change next ≤ s.next + 1; omega, fun c hc => ?_⟩
    have : c ≠ s.next := by omega
    simp [this, hsame c hc]
  by_cases hs : ob.tid t ∈ s.seen
  · refine ⟨⟨_, _, _, s.seen, s.all⟩, ?_, key _ _, by simp [elems, hne, hsame _ hlt], fun h => absurd hs h,
      fun _ => ⟨rfl, rfl⟩⟩
    unfold pass
    rw [he]
    simp [slice, ha, note, hs, extend]
  · refine ⟨⟨_, _, _, ob.tid t :: s.seen, s.all ++ [t]⟩, ?_, key _ _, by simp [elems, hne, hsame _ hlt],
      fun _ => ⟨rfl, rfl⟩, fun h => absurd h hs⟩
    unfold pass
    rw [he]
    simp [slice, ha, note, hs, extend]

theorem pass_some (h : s.pass ob = .ok (some s')) : ∃ t rest, s.elems = t :: rest := by
  unfold pass at h
  split at h
  · cases h
  · rename_i t rest e
    exact ⟨t, rest, e⟩

theorem pass_none : s.pass ob = .ok none ↔ s.elems = [] := by
  unfold pass
  split
  · simp_all
  · rename_i t rest e
    simp only [e, reduceCtorEq, iff_false]
    split <;> simp

theorem good_pass (ho : ∀ o, ob.ups o < next) (h : Good heap next s) (hp : s.pass ob = .ok (some s')) :
    Good heap next s' := by
  obtain ⟨t, rest, e⟩ := pass_some hp
  obtain ⟨s1, h1, h2, _⟩ := pass_good ho h e
  rw [h1] at hp
  cases hp
  exact h2

theorem good_passes (ho : ∀ o, ob.ups o < next) (h : Good heap next s) (hp : Passes ob s s') : Good heap next s' := by
  induction hp with
  | refl => exact h
  | step _ h2 ih => exact good_pass ho ih h2

theorem loop_passes : ∀ (n : Nat) {s : Coll O}, s.loop ob n = .ok s' → Passes ob s s' ∧ s'.elems = []
  | 0, _, h => by cases h
  | n + 1, s, h => by
    unfold loop at h
    split at h
    · cases h
    · rename_i e
      cases h
      exact ⟨.refl _, pass_none.1 e⟩
    · rename_i s1 e
      obtain ⟨h1, h2⟩ := loop_passes n h
      exact ⟨h1.head e, h2⟩

/-- With an element from which there is no end, no pass is the last one. -/
theorem loop_stuck (ho : ∀ o, ob.ups o < next) :
    ∀ (n : Nat) {s : Coll O}, Good heap next s → (∃ o ∈ s.elems, ¬ Acc (fun u t => u ∈ heap (ob.ups t)) o) →
      s.loop ob n = .error .outOfFuel
  | 0, _, _, _ => rfl
  | n + 1, s, h, ⟨o, ho1, ho2⟩ => by
    rcases e : s.elems with _ | ⟨t, rest⟩
    · rw [e] at ho1; cases ho1
    · obtain ⟨s1, h1, h2, h3, _⟩ := pass_good ho h e
      unfold loop
      rw [h1]
      refine loop_stuck ho n h2 ?_
      rw [h3]
      rw [e] at ho1
      rcases List.mem_cons.1 ho1 with rfl | ho1
      · by_contra hc
        push Not at hc
        exact ho2 (Acc.intro _ fun u hu => hc u (List.mem_append_right _ hu))
      · exact ⟨o, List.mem_append_left _ ho1, ho2⟩

/-- What is collected depends only on the lists that existed before. -/
theorem loop_congr (ho : ∀ o, ob.ups o < next) :
    ∀ (n : Nat) {s s' r : Coll O}, Good heap next s → Good heap next s' → s'.elems = s.elems → s'.seen = s.seen →
      s'.all = s.all → s.loop ob n = .ok r → ∃ r', s'.loop ob n = .ok r' ∧ r'.all = r.all
  | 0, _, _, _, _, _, _, _, _, h => by cases h
  | n + 1, s, s', r, g1, g2, e1, e2, e3, h => by
    rcases e : s.elems with _ | ⟨t, rest⟩
    · unfold loop at h ⊢
      rw [pass_none.2 e] at h
      rw [pass_none.2 (e1.trans e)]
      cases h
      exact ⟨s', rfl, e3⟩
    · obtain ⟨s1, p1, p2, p3, p4, p5⟩ := pass_good ho g1 e
      obtain ⟨s2, q1, q2, q3, q4, q5⟩ := pass_good ho g2 (e1.trans e)
      unfold loop at h ⊢
      rw [p1] at h
      rw [q1]
      refine loop_congr ho n p2 q2 (q3.trans p3.symm) ?_ ?_ h
      · by_cases hs : ob.tid t ∈ s.seen
        · rw [(p5 hs).1, (q5 (e2 ▸ hs)).1, e2]
        · rw [(p4 hs).1, (q4 (e2 ▸ hs)).1, e2]
      · by_cases hs : ob.tid t ∈ s.seen
        · rw [(p5 hs).2, (q5 (e2 ▸ hs)).2, e3]
        · rw [(p4 hs).2, (q4 (e2 ▸ hs)).2, e3]

end Coll

/-- The object `o` looks like the tree: same id, and its upstream tasks look like the required ones. -/
inductive Unfolds {O α : Type} (ob : TaskObjs O) (heap : Nat → List O) (info : O → α) : O → TTree α → Prop
  | node (o : O) (us : List (TTree α)) : List.Forall₂ (Unfolds ob heap info) (heap (ob.ups o)) us →
      Unfolds ob heap info o (.node (ob.tid o) (info o) us)

namespace Coll

variable {O α : Type} {ob : TaskObjs O} {s s' : Coll O} {heap : Nat → List O} {next : Nat} {info : O → α}

theorem unfolds_of_acc {o : O} (h : Acc (fun u t => u ∈ heap (ob.ups t)) o) : ∃ t : TTree α, Unfolds ob heap info o t := by
  induction h with
  | intro o _ ih =>
    have : ∀ l : List O, (∀ u ∈ l, u ∈ heap (ob.ups o)) → ∃ us : List (TTree α), List.Forall₂ (Unfolds ob heap info) l us := by
      intro l
      induction l with
      | nil => exact fun _ => ⟨[], .nil⟩
      | cons u l ihl =>
        intro hl
        obtain ⟨t, ht⟩ := ih u (hl u (by simp))
        obtain ⟨us, hus⟩ := ihl (fun v hv => hl v (by simp [hv]))
        exact ⟨t :: us, .cons ht hus⟩
    obtain ⟨us, hus⟩ := this _ (fun _ h => h)
    exact ⟨_, .node o us hus⟩

theorem unfolds_all {l : List O} (h : ∀ o ∈ l, Acc (fun u t => u ∈ heap (ob.ups t)) o) :
    ∃ ts : List (TTree α), List.Forall₂ (Unfolds ob heap info) l ts := by
  induction l with
  | nil => exact ⟨[], .nil⟩
  | cons o l ih =>
    obtain ⟨t, ht⟩ := unfolds_of_acc (α := α) (info := info) (h o (by simp))
    obtain ⟨ts, hts⟩ := ih (fun v hv => h v (by simp [hv]))
    exact ⟨t :: ts, .cons ht hts⟩

/-- The loop does what `Convenience.flattenLoop` does. -/
theorem loop_flatten (ho : ∀ o, ob.ups o < next) :
    ∀ (n : Nat) {s : Coll O} {ts acc r : List (TTree α)}, Good heap next s →
      List.Forall₂ (Unfolds ob heap info) s.elems ts → List.Forall₂ (Unfolds ob heap info) s.all acc →
      Convenience.flattenLoop n ts s.seen acc = .ok r →
      ∃ s', s.loop ob (n + 1) = .ok s' ∧ List.Forall₂ (Unfolds ob heap info) s'.all r
  | n, s, [], acc, r, h, h1, h2, h3 => by
    have e : s.elems = [] := by cases h1' : s.elems with
      | nil => rfl
      | cons => rw [h1'] at h1; cases h1
    unfold loop
    rw [pass_none.2 e]
    refine ⟨s, rfl, ?_⟩
    cases n with
    | zero => cases h3; exact h2
    | succ n => cases h3; exact h2
  | 0, s, t :: ts, acc, r, h, h1, h2, h3 => by cases h3
  | n + 1, s, t :: ts, acc, r, h, h1, h2, h3 => by
    rcases e : s.elems with _ | ⟨o, rest⟩
    · rw [e] at h1; cases h1
    · rw [e] at h1
      cases h1 with
      | cons ho1 hrest =>
        obtain ⟨s1, p1, p2, p3, p4, p5⟩ := pass_good ho h e
        have ht : t.id = ob.tid o ∧ List.Forall₂ (Unfolds ob heap info) (heap (ob.ups o)) t.requires := by
          cases ho1 with
          | node _ us hus => exact ⟨rfl, hus⟩
        have hel : List.Forall₂ (Unfolds ob heap info) s1.elems (ts ++ t.requires) := by
          rw [p3]
          exact List.rel_append hrest ht.2
        rw [loop, p1]
        unfold Convenience.flattenLoop at h3
        rw [ht.1] at h3
        split at h3
        · rename_i hs
          obtain ⟨q1, q2⟩ := p4 hs
          refine loop_flatten ho n p2 hel ?_ (q1 ▸ h3)
          rw [q2]
          exact List.rel_append h2 (.cons ho1 .nil)
        · rename_i hs
          obtain ⟨q1, q2⟩ := p5 (not_not.1 hs)
          exact loop_flatten ho n p2 hel (q2 ▸ h2) (q1 ▸ h3)

end Coll
end Verif
