import Verif.Spec.ById
import Verif.Spec.Graph
import Verif.Proofs.Run

/-! # The scheduler that compares blocks by their ids -/

set_option linter.unusedSectionVars false

namespace Verif.ById

open Spec

variable {N T K : Type} [DecidableEq N] [DecidableEq T] [DecidableEq K] {ig : IdGraph N T K}

/-- Related results: the same exception, or related values. -/
def ERel {α β : Type} (R : α → β → Prop) : Except PyErr α → Except PyErr β → Prop
  | .ok a, .ok b => R a b
  | .error e, .error e' => e = e'
  | _, _ => False

/-- Sets with the same blocks of the graph, one compared by id. -/
def SSim (ig : IdGraph N T K) (s' s : Finset N) : Prop := ∀ n ∈ ig.g.nodes, Has ig.g.key s' n ↔ n ∈ s

/-- Surfaces and boundaries with the same blocks. -/
def RSim (ig : IdGraph N T K) (rs' rs : RS N) : Prop := SSim ig rs'.surface rs.surface ∧ SSim ig rs'.boundary rs.boundary

/-- An object that stands for block `n`. -/
structure Ver (ig : IdGraph N T K) (n' n : N) : Prop where
  mem : n ∈ ig.g.nodes
  key : ig.g.key n' = ig.g.key n
  task : ig.g.task n' = ig.g.task n
  up : ig.up n' = .ok (ig.g.up n)
  down : ig.down n' = .ok (ig.g.down n)

theorem Ver.self (ht : Total ig) {n : N} (hn : n ∈ ig.g.nodes) : Ver ig n n := ⟨hn, rfl, rfl, (ht n hn).1, (ht n hn).2⟩

theorem has_congr {s : Finset N} {n' n : N} (h : ig.g.key n' = ig.g.key n) :
    Has ig.g.key s n' ↔ Has ig.g.key s n := by
  unfold Has
  rw [h]

theorem SSim.add (hg : ig.g.OK) {s' s : Finset N} (h : SSim ig s' s) {n' n : N} (hn : n ∈ ig.g.nodes)
    (hk : ig.g.key n' = ig.g.key n) : SSim ig (add ig.g.key s' n') (insert n s) := by
  intro m hm
  have h1 : Has ig.g.key (ById.add ig.g.key s' n') m ↔ Has ig.g.key s' m ∨ ig.g.key n' = ig.g.key m := by
    unfold ById.add
    split
    · rename_i hh
      constructor
      · exact .inl
      · rintro (h | h)
        · exact h
        · exact (has_congr h).1 hh
    · unfold Has
      simp only [Finset.mem_insert, exists_eq_or_imp]
      exact or_comm
  rw [h1, h m hm, Finset.mem_insert, hk]
  constructor
  · rintro (h | h)
    · exact .inr h
    · exact .inl (hg.key_inj n hn m hm h).symm
  · rintro (rfl | h)
    · exact .inr rfl
    · exact .inl h

theorem SSim.remove (hg : ig.g.OK) {s' s : Finset N} (h : SSim ig s' s) {n' n : N} (hn : n ∈ ig.g.nodes)
    (hk : ig.g.key n' = ig.g.key n) : ERel (SSim ig) (remove ig.g.key s' n') (RS.setRemove s n) := by
  unfold ById.remove RS.setRemove
  have h0 : Has ig.g.key s' n' ↔ n ∈ s := (has_congr hk).trans (h n hn)
  by_cases hs : n ∈ s
  · rw [if_pos (h0.2 hs), if_pos hs]
    intro m hm
    have h1 : Has ig.g.key (s'.filter (fun m => ig.g.key m ≠ ig.g.key n')) m ↔
        Has ig.g.key s' m ∧ ig.g.key m ≠ ig.g.key n' := by
      unfold Has
      simp only [Finset.mem_filter]
      constructor
      · rintro ⟨x, ⟨h1, h2⟩, h3⟩
        exact ⟨⟨x, h1, h3⟩, h3 ▸ h2⟩
      · rintro ⟨⟨x, h1, h3⟩, h2⟩
        exact ⟨x, ⟨h1, by rw [h3]; exact h2⟩, h3⟩
    rw [h1, h m hm, Finset.mem_erase, hk, and_comm]
    constructor
    · rintro ⟨a, b⟩
      exact ⟨fun e => a (by rw [e]), b⟩
    · rintro ⟨a, b⟩
      exact ⟨fun e => a (hg.key_inj m hm n hn e), b⟩
  · rw [if_neg (fun h => hs (h0.1 h)), if_neg hs]
    rfl

theorem addToBoundary_sim (hg : ig.g.OK) (ht : Total ig) {rs' rs : RS N} (h : RSim ig rs' rs) {n : N}
    (hn : n ∈ ig.g.nodes) :
    ERel (fun a b => a.1 = b.1 ∧ RSim ig a.2 b.2) (addToBoundary ig rs' n) (.ok (RS.addToBoundary ig.g rs n)) := by
  unfold addToBoundary RS.addToBoundary
  rw [(ht n hn).1]
  have h1 : (¬ Has ig.g.key rs'.boundary n ∧ ∃ u ∈ ig.g.up n, Has ig.g.key rs'.boundary u) ↔
      (n ∉ rs.boundary ∧ ∃ u ∈ ig.g.up n, u ∈ rs.boundary) := by
    rw [h.2 n hn]
    refine and_congr_right fun _ => exists_congr fun u => and_congr_right fun hu => ?_
    exact h.2 u (hg.up_mem n hn u hu)
  by_cases hc : n ∉ rs.boundary ∧ ∃ u ∈ ig.g.up n, u ∈ rs.boundary
  · simp only
    rw [if_pos (h1.2 hc), if_pos hc]
    exact ⟨rfl, h.1, h.2.add hg hn rfl⟩
  · simp only
    rw [if_neg (fun h => hc (h1.1 h)), if_neg hc]
    exact ⟨rfl, h⟩

theorem removeFromBoundary_sim (hg : ig.g.OK) (ht : Total ig) {rs' rs : RS N} (h : RSim ig rs' rs) {n : N}
    (hn : n ∈ ig.g.nodes) :
    ERel (RSim ig) (removeFromBoundary ig rs' n) (.ok (RS.removeFromBoundary ig.g rs n)) := by
  unfold removeFromBoundary RS.removeFromBoundary
  rw [(ht n hn).1]
  have h1 : (Has ig.g.key rs'.boundary n ∧ ∀ u ∈ ig.g.up n, ¬ Has ig.g.key rs'.surface u) ↔
      (n ∈ rs.boundary ∧ ∀ u ∈ ig.g.up n, u ∉ rs.surface) := by
    rw [h.2 n hn]
    refine and_congr_right fun _ => forall_congr' fun u => imp_congr_right fun hu => not_congr ?_
    exact h.1 u (hg.up_mem n hn u hu)
  by_cases hc : n ∈ rs.boundary ∧ ∀ u ∈ ig.g.up n, u ∉ rs.surface
  · simp only
    rw [if_pos (h1.2 hc), if_pos hc]
    have h2 := h.2.remove hg hn (n' := n) rfl
    unfold RS.setRemove at h2
    rw [if_pos hc.1] at h2
    rcases hz : ById.remove ig.g.key rs'.boundary n with e | b
    · rw [hz] at h2
      exact h2.elim
    · rw [hz] at h2
      exact ⟨h.1, h2⟩
  · simp only
    rw [if_neg (fun h => hc (h1.1 h)), if_neg hc]
    exact h

theorem contained_sim {rs' rs : RS N} (h : RSim ig rs' rs) {n : N} (hn : n ∈ ig.g.nodes) :
    contained ig.g.key rs' n = rs.contained n := by
  unfold contained RS.contained
  simp only [h.1 n hn, h.2 n hn]

theorem removeAll_sim (hg : ig.g.OK) (ht : Total ig) : ∀ (l : List (N × Int)) {rs' rs : RS N}, RSim ig rs' rs →
    (∀ p ∈ l, p.1 ∈ ig.g.nodes) →
    ERel (RSim ig) (removeAll ig l rs') (.ok (l.foldl
      (fun r dc => if dc.2 < 0 then r.removeFromBoundary ig.g dc.1 else r) rs)) := by
  intro l
  induction l with
  | nil => intro rs' rs h _; exact h
  | cons p l ih =>
    intro rs' rs h hl
    obtain ⟨m, c⟩ := p
    unfold removeAll
    rw [List.foldl_cons]
    have hl' : ∀ p ∈ l, p.1 ∈ ig.g.nodes := fun p hp => hl p (List.mem_cons_of_mem _ hp)
    by_cases hc : c < 0
    · rw [if_pos hc]
      simp only [hc, if_true]
      have h1 := removeFromBoundary_sim hg ht h (hl (m, c) (List.mem_cons_self ..))
      rcases hz : removeFromBoundary ig rs' m with e | x
      · rw [hz] at h1
        exact h1.elim
      · rw [hz] at h1
        exact ih h1 hl'
    · rw [if_neg hc]
      simp only [hc, if_false]
      exact ih h hl'

theorem cleanUp_sim (hg : ig.g.OK) (ht : Total ig) {rs' rs : RS N} (h : RSim ig rs' rs) {u : N}
    (hu : u ∈ ig.g.nodes) : ERel (RSim ig) (cleanUp ig rs' u) (RS.cleanUp ig.g rs u) := by
  unfold cleanUp RS.cleanUp
  rw [(ht u hu).2]
  have h1 : (ig.g.down u).map (contained ig.g.key rs') = (ig.g.down u).map rs.contained :=
    List.map_congr_left fun m hm => contained_sim h (hg.down_mem u hu m hm)
  simp only [h1]
  split
  · have h2 := h.1.remove hg hu (n' := u) rfl
    rcases hz : ById.remove ig.g.key rs'.surface u with e | s' <;>
      rcases hy : RS.setRemove rs.surface u with e' | s <;> rw [hz, hy] at h2
    · exact h2
    · exact h2.elim
    · exact h2.elim
    · refine removeAll_sim hg ht _ ⟨h2, h.2⟩ ?_
      intro p hp
      exact hg.down_mem u hu _ (List.of_mem_zip hp).1
  · exact h

theorem cleanUps_sim (hg : ig.g.OK) (ht : Total ig) : ∀ (us : List N) {rs' rs : RS N}, RSim ig rs' rs →
    (∀ u ∈ us, u ∈ ig.g.nodes) → ERel (RSim ig) (cleanUps ig us rs') (RS.cleanUps ig.g us rs) := by
  intro us
  induction us with
  | nil => intro rs' rs h _; exact h
  | cons u us ih =>
    intro rs' rs h hu
    unfold cleanUps RS.cleanUps
    have h1 := cleanUp_sim hg ht h (hu u (List.mem_cons_self ..))
    rcases hz : cleanUp ig rs' u with e | x <;> rcases hy : RS.cleanUp ig.g rs u with e' | y <;> rw [hz, hy] at h1
    · exact h1
    · exact h1.elim
    · exact h1.elim
    · exact ih h1 (fun v hv => hu v (List.mem_cons_of_mem _ hv))

theorem scanDown_sim (hg : ig.g.OK) (ht : Total ig) : ∀ (ms : List N) {rs' rs : RS N} (ready : List N), RSim ig rs' rs →
    (∀ m ∈ ms, m ∈ ig.g.nodes) →
    ERel (fun a b => a.1 = b.1 ∧ RSim ig a.2 b.2) (scanDown ig ms rs' ready) (.ok (RS.scanDown ig.g ms rs ready)) := by
  intro ms
  induction ms with
  | nil => intro rs' rs ready h _; exact ⟨rfl, h⟩
  | cons m ms ih =>
    intro rs' rs ready h hm
    unfold scanDown RS.scanDown
    have hm0 := hm m (List.mem_cons_self ..)
    have hms : ∀ x ∈ ms, x ∈ ig.g.nodes := fun v hv => hm v (List.mem_cons_of_mem _ hv)
    have h1 := addToBoundary_sim hg ht h hm0
    rcases hz : addToBoundary ig rs' m with e | ⟨b', x⟩ <;> rcases hy : RS.addToBoundary ig.g rs m with ⟨b, y⟩ <;>
      rw [hz, hy] at h1
    · exact h1.elim
    · obtain ⟨h1, h2⟩ := h1
      simp only at h1
      subst h1
      cases b' with
      | true => exact ih ready h2 hms
      | false =>
        simp only
        rw [(ht m hm0).1]
        have h3 : (∀ u ∈ ig.g.up m, Has ig.g.key x.surface u) ↔ ∀ u ∈ ig.g.up m, u ∈ y.surface :=
          forall_congr' fun u => imp_congr_right fun hu => h2.1 u (hg.up_mem m hm0 u hu)
        simp only
        by_cases hc : ∀ u ∈ ig.g.up m, u ∈ y.surface
        · rw [if_pos (h3.2 hc), if_pos hc]
          exact ih _ h2 hms
        · rw [if_neg (fun h => hc (h3.1 h)), if_neg hc]
          exact ih _ h2 hms

theorem markSuccess_sim (hg : ig.g.OK) (ht : Total ig) {rs' rs : RS N} (h : RSim ig rs' rs) {n' n : N}
    (hv : Ver ig n' n) :
    ERel (fun a b => a.1 = b.1 ∧ RSim ig a.2 b.2) (markSuccess ig rs' n') (RS.markSuccess ig.g rs n) := by
  unfold markSuccess RS.markSuccess
  rw [hv.up, hv.down]
  have hup := hg.up_mem n hv.mem
  have h1 : (∀ u ∈ ig.g.up n, Has ig.g.key rs'.surface u) ↔ ∀ u ∈ ig.g.up n, u ∈ rs.surface :=
    forall_congr' fun u => imp_congr_right fun hu => h.1 u (hup u hu)
  simp only [h1]
  by_cases hc : ∀ u ∈ ig.g.up n, u ∈ rs.surface
  · rw [if_neg (not_not.2 hc), if_neg (not_not.2 hc)]
    have h2 := scanDown_sim hg ht (ig.g.down n) (rs' := { rs' with surface := ById.add ig.g.key rs'.surface n' })
      (rs := { rs with surface := insert n rs.surface }) [] ⟨h.1.add hg hv.mem hv.key, h.2⟩ (hg.down_mem n hv.mem)
    rcases hz : scanDown ig (ig.g.down n) { rs' with surface := ById.add ig.g.key rs'.surface n' } [] with e | ⟨r', x⟩
    · rw [hz] at h2
      exact h2.elim
    · rcases hy : RS.scanDown ig.g (ig.g.down n) { rs with surface := insert n rs.surface } [] with ⟨r, y⟩
      rw [hz, hy] at h2
      obtain ⟨h2, h3⟩ := h2
      simp only at h2
      subst h2
      simp only
      have h4 := cleanUps_sim hg ht (ig.g.up n) h3 hup
      rcases hz : cleanUps ig (ig.g.up n) x with e | x1 <;> rcases hy : RS.cleanUps ig.g (ig.g.up n) y with e' | y1 <;>
        rw [hz, hy] at h4
      · exact h4
      · exact h4.elim
      · exact h4.elim
      · simp only
        split
        · have h5 := SSim.remove hg h4.1 hv.mem hv.key
          rcases hz : ById.remove ig.g.key x1.surface n' with e | s' <;>
            rcases hy : RS.setRemove y1.surface n with e' | s <;> rw [hz, hy] at h5
          · exact h5
          · exact h5.elim
          · exact h5.elim
          · exact ⟨rfl, h5, h4.2⟩
        · exact ⟨rfl, h4⟩
  · rw [if_pos hc, if_pos hc]
    rfl

/-! ### Sets of blocks of the graph -/

theorem has_mem (hg : ig.g.OK) {s : Finset N} (hs : ∀ x ∈ s, x ∈ ig.g.nodes) {n : N} (hn : n ∈ ig.g.nodes) :
    Has ig.g.key s n ↔ n ∈ s := by
  constructor
  · rintro ⟨m, h1, h2⟩
    exact hg.key_inj m (hs m h1) n hn h2 ▸ h1
  · exact fun h => ⟨n, h, rfl⟩

theorem add_eq (hg : ig.g.OK) {s : Finset N} (hs : ∀ x ∈ s, x ∈ ig.g.nodes) {n : N} (hn : n ∈ ig.g.nodes) :
    add ig.g.key s n = insert n s := by
  unfold add
  split
  · rename_i h
    exact (Finset.insert_eq_self.2 ((has_mem hg hs hn).1 h)).symm
  · rfl

theorem ofList_eq (hg : ig.g.OK) {l : List N} (hl : ∀ x ∈ l, x ∈ ig.g.nodes) : ofList ig.g.key l = l.toFinset := by
  have : ∀ (l : List N) (s : Finset N), (∀ x ∈ l, x ∈ ig.g.nodes) → (∀ x ∈ s, x ∈ ig.g.nodes) →
      l.foldl (add ig.g.key) s = s ∪ l.toFinset := by
    intro l
    induction l with
    | nil => intro s _ _; simp
    | cons n l ih =>
      intro s h1 h2
      have hn := h1 n (List.mem_cons_self ..)
      rw [List.foldl_cons, add_eq hg h2 hn, ih _ (fun x hx => h1 x (List.mem_cons_of_mem _ hx))]
      · ext x
        simp only [Finset.mem_union, Finset.mem_insert, List.mem_toFinset, List.mem_cons]
        tauto
      · intro x hx
        rcases Finset.mem_insert.1 hx with rfl | hx
        · exact hn
        · exact h2 x hx
  unfold ofList
  rw [this l ∅ hl (by simp), Finset.empty_union]

theorem diff_eq (hg : ig.g.OK) {s r : Finset N} (hs : ∀ x ∈ s, x ∈ ig.g.nodes) (hr : ∀ x ∈ r, x ∈ ig.g.nodes) :
    diff ig.g.key s r = s \ r := by
  ext x
  unfold diff
  rw [Finset.mem_filter, Finset.mem_sdiff]
  exact and_congr_right fun hx => not_congr (has_mem hg hr (hs x hx))

theorem union_eq (hg : ig.g.OK) {s r : Finset N} (hs : ∀ x ∈ s, x ∈ ig.g.nodes) (hr : ∀ x ∈ r, x ∈ ig.g.nodes) :
    union ig.g.key s r = s ∪ r := by
  unfold union
  rw [diff_eq hg hr hs, Finset.union_sdiff_self_eq_union]

theorem orphanLoop_sim (hg : ig.g.OK) (ht : Total ig) (pick : Nat → Finset N → N) :
    ∀ (fuel k : Nat) (work : Finset N) {rs' rs : RS N} (orphans : Finset N), RSim ig rs' rs →
    (∀ x ∈ work, x ∈ ig.g.nodes) → (∀ x ∈ orphans, x ∈ ig.g.nodes) →
    ERel (fun a b => a.1 = b.1 ∧ RSim ig a.2 b.2) (orphanLoop ig pick fuel k work rs' orphans)
      (RS.orphanLoop ig.g pick fuel k work rs orphans) := by
  intro fuel
  induction fuel with
  | zero => intro _ _ _ _ _ _ _ _; rfl
  | succ fuel ih =>
    intro k work rs' rs orphans h hw ho
    unfold orphanLoop RS.orphanLoop
    by_cases h0 : work = ∅
    · rw [if_pos h0, if_pos h0]
      exact ⟨rfl, h⟩
    · rw [if_neg h0, if_neg h0]
      simp only
      by_cases hp : pick k work ∉ work
      · rw [if_pos hp, if_pos hp]
        rfl
      · rw [if_neg hp, if_neg hp]
        rw [not_not] at hp
        have hm := hw _ hp
        generalize pick k work = m at hp hm
        have hw' : ∀ x ∈ work.erase m, x ∈ ig.g.nodes := fun x hx => hw x (Finset.mem_of_mem_erase hx)
        have h1 := addToBoundary_sim hg ht h hm
        rcases hz : addToBoundary ig rs' m with e | ⟨b', x⟩ <;>
          rcases hy : RS.addToBoundary ig.g rs m with ⟨b, y⟩ <;> rw [hz, hy] at h1
        · exact h1.elim
        · obtain ⟨h1, h2⟩ := h1
          simp only at h1
          subst h1
          cases b' with
          | true =>
            simp only
            rw [(ht m hm).2]
            simp only
            have hd : ∀ x ∈ (ig.g.down m).toFinset, x ∈ ig.g.nodes :=
              fun x hx => hg.down_mem m hm x (List.mem_toFinset.1 hx)
            have hd' : ∀ x ∈ (ig.g.down m).toFinset \ orphans, x ∈ ig.g.nodes :=
              fun x hx => hd x (Finset.mem_sdiff.1 hx).1
            rw [ofList_eq hg (hg.down_mem m hm), diff_eq hg hd ho, union_eq hg hw' hd', add_eq hg ho hm]
            refine ih _ _ _ h2 ?_ ?_
            · intro x hx
              rcases Finset.mem_union.1 hx with hx | hx
              · exact hw' x hx
              · exact hd' x hx
            · intro x hx
              rcases Finset.mem_insert.1 hx with rfl | hx
              · exact hm
              · exact ho x hx
          | false => exact ih _ _ _ h2 hw' ho

theorem markFailure_sim (hg : ig.g.OK) (ht : Total ig) (pick : Nat → Finset N → N) {rs' rs : RS N} (h : RSim ig rs' rs)
    {n' n : N} (hv : Ver ig n' n) :
    ERel (fun a b => a.1 = b.1 ∧ RSim ig a.2 b.2) (markFailure ig pick rs' n') (RS.markFailure ig.g pick rs n) := by
  unfold markFailure RS.markFailure
  rw [hv.up, hv.down]
  have hup := hg.up_mem n hv.mem
  have hdn := hg.down_mem n hv.mem
  have h1 : (∀ u ∈ ig.g.up n, Has ig.g.key rs'.surface u) ↔ ∀ u ∈ ig.g.up n, u ∈ rs.surface :=
    forall_congr' fun u => imp_congr_right fun hu => h.1 u (hup u hu)
  simp only [h1]
  by_cases hc : ∀ u ∈ ig.g.up n, u ∈ rs.surface
  · rw [if_neg (not_not.2 hc), if_neg (not_not.2 hc), ofList_eq hg hdn]
    have h2 := orphanLoop_sim hg ht pick (RS.orphanFuel ig.g) 0 (ig.g.down n).toFinset
      (rs' := { rs' with boundary := ById.add ig.g.key rs'.boundary n' })
      (rs := { rs with boundary := insert n rs.boundary }) ∅ ⟨h.1, h.2.add hg hv.mem hv.key⟩
      (fun x hx => hdn x (List.mem_toFinset.1 hx)) (by simp)
    rcases hz : orphanLoop ig pick (RS.orphanFuel ig.g) 0 (ig.g.down n).toFinset
        { rs' with boundary := ById.add ig.g.key rs'.boundary n' } ∅ with e | ⟨r', x⟩ <;>
      rcases hy : RS.orphanLoop ig.g pick (RS.orphanFuel ig.g) 0 (ig.g.down n).toFinset
        { rs with boundary := insert n rs.boundary } ∅ with e' | ⟨r, y⟩ <;> rw [hz, hy] at h2
    · exact h2
    · exact h2.elim
    · exact h2.elim
    · obtain ⟨h2, h3⟩ := h2
      simp only at h2
      subst h2
      simp only
      have h4 := cleanUps_sim hg ht (ig.g.up n) h3 hup
      rcases hz : cleanUps ig (ig.g.up n) x with e | x1 <;> rcases hy : RS.cleanUps ig.g (ig.g.up n) y with e' | y1 <;>
        rw [hz, hy] at h4
      · exact h4
      · exact h4.elim
      · exact h4.elim
      · simp only
        split
        · have h5 := SSim.remove hg h4.2 hv.mem hv.key
          rcases hz : ById.remove ig.g.key x1.boundary n' with e | s' <;>
            rcases hy : RS.setRemove y1.boundary n with e' | s <;> rw [hz, hy] at h5
          · exact h5
          · exact h5.elim
          · exact h5.elim
          · exact ⟨rfl, h4.1, h5⟩
        · exact ⟨rfl, h4⟩
  · rw [if_pos hc, if_pos hc]
    rfl

/-! ### The scheduler -/

/-- An object that stands for block `n`, and of which more is known. -/
def VerR (ig : IdGraph N T K) (R : N → N → Prop) (n' n : N) : Prop := Ver ig n' n ∧ R n' n

theorem VerR.self {R : N → N → Prop} (hR : ∀ n, R n n) (ht : Total ig) {n : N} (hn : n ∈ ig.g.nodes) : VerR ig R n n :=
  ⟨.self ht hn, hR n⟩

variable {R : N → N → Prop}

/-- Queues with the same blocks. -/
structure QSim (ig : IdGraph N T K) (R : N → N → Prop) (q' q : PQueue N K) : Prop where
  processing : q'.processing = q.processing
  retries : q'.retries = q.retries
  readyRoots : q'.readyRoots = q.readyRoots
  rootGen : q'.rootGen = q.rootGen
  roots : ∀ n ∈ q.rootGen, n ∈ ig.g.nodes
  readyQueue : List.Forall₂ (VerR ig R) q'.readyQueue q.readyQueue

/-- States of the scheduler with the same blocks. -/
structure StSim (ig : IdGraph N T K) (R : N → N → Prop) (st' st : Sched N T K) : Prop where
  rs : RSim ig st'.rs st.rs
  states : st'.states = st.states
  queues : ∀ t, QSim ig R (st'.queues t) (st.queues t)

theorem StSim.modState {st' st : Sched N T K} (h : StSim ig R st' st) (t : T) (f : TState → TState) :
    StSim ig R (st'.modState t f) (st.modState t f) := by
  refine ⟨h.rs, ?_, h.queues⟩
  unfold Sched.modState
  simp only [h.states]

theorem StSim.modQueue {st' st : Sched N T K} (h : StSim ig R st' st) (t : T) {f f' : PQueue N K → PQueue N K}
    (hf : ∀ q' q, QSim ig R q' q → QSim ig R (f' q') (f q)) : StSim ig R (st'.modQueue t f') (st.modQueue t f) := by
  refine ⟨h.rs, h.states, ?_⟩
  intro x
  rw [Sched.modQueue_queues, Sched.modQueue_queues]
  split
  · exact hf _ _ (h.queues t)
  · exact h.queues x

theorem StSim.withRs {st' st : Sched N T K} (h : StSim ig R st' st) {rs' rs : RS N} (hr : RSim ig rs' rs) :
    StSim ig R { st' with rs := rs' } { st with rs := rs } := ⟨hr, h.states, h.queues⟩

theorem StSim.queueReady {st' st : Sched N T K} (h : StSim ig R st' st) {n' n : N} (hv : VerR ig R n' n) :
    StSim ig R (st'.queueReadyBlock ig.g n') (st.queueReadyBlock ig.g n) := by
  unfold Sched.queueReadyBlock
  rw [hv.1.task]
  refine StSim.modState (StSim.modQueue h _ ?_) _ _
  intro q' q hq
  refine ⟨hq.processing, hq.retries, hq.readyRoots, hq.rootGen, hq.roots, ?_⟩
  exact List.rel_append hq.readyQueue (.cons hv .nil)

theorem StSim.updateReady (hR : ∀ n, R n n) (ht : Total ig) : ∀ (ns : List N) {st' st : Sched N T K}, StSim ig R st' st →
    (∀ n ∈ ns, n ∈ ig.g.nodes) → StSim ig R (st'.updateReadyQueue ig.g ns) (st.updateReadyQueue ig.g ns) := by
  intro ns
  unfold Sched.updateReadyQueue
  induction ns with
  | nil => intro _ _ h _; exact h
  | cons n ns ih =>
    intro st' st h hn
    rw [List.foldl_cons, List.foldl_cons]
    exact ih (h.queueReady (.self hR ht (hn n (List.mem_cons_self ..)))) (fun x hx => hn x (List.mem_cons_of_mem _ hx))

theorem removeFromProcessing_sim {st' st : Sched N T K} (h : StSim ig R st' st) {n' n : N} (hv : VerR ig R n' n) :
    ERel (StSim ig R) (st'.removeFromProcessing ig.g n') (st.removeFromProcessing ig.g n) := by
  unfold Sched.removeFromProcessing
  rw [hv.1.task, hv.1.key, (h.queues _).processing]
  split
  · refine StSim.modState (StSim.modQueue h _ ?_) _ _
    intro q' q hq
    refine ⟨?_, hq.retries, hq.readyRoots, hq.rootGen, hq.roots, hq.readyQueue⟩
    simp only [hq.processing]
  · rfl

theorem scanDown_mem (g : DGraph N T K) : ∀ (ms : List N) (rs : RS N) (ready : List N),
    ∀ x ∈ (RS.scanDown g ms rs ready).1, x ∈ ready ∨ x ∈ ms := by
  intro ms
  induction ms with
  | nil => intro rs ready x hx; exact .inl hx
  | cons m ms ih =>
    intro rs ready x hx
    unfold RS.scanDown at hx
    generalize RS.addToBoundary g rs m = br at hx
    obtain ⟨b, rs1⟩ := br
    cases b with
    | true =>
      rcases ih _ _ x hx with h | h
      · exact .inl h
      · exact .inr (List.mem_cons_of_mem _ h)
    | false =>
      simp only at hx
      split at hx
      · rcases ih _ _ x hx with h | h
        · rcases List.mem_append.1 h with h | h
          · exact .inl h
          · exact .inr (List.mem_cons.2 (.inl (List.mem_singleton.1 h)))
        · exact .inr (List.mem_cons_of_mem _ h)
      · rcases ih _ _ x hx with h | h
        · exact .inl h
        · exact .inr (List.mem_cons_of_mem _ h)

theorem markSuccess_mem {g : DGraph N T K} {rs rs1 : RS N} {n : N} {ready : List N}
    (h : RS.markSuccess g rs n = .ok (ready, rs1)) : ∀ x ∈ ready, x ∈ g.down n := by
  unfold RS.markSuccess at h
  simp only at h
  split at h
  · cases h
  · have h0 := scanDown_mem g (g.down n) { rs with surface := insert n rs.surface } []
    generalize RS.scanDown g (g.down n) { rs with surface := insert n rs.surface } [] = ry at h h0
    obtain ⟨r, y⟩ := ry
    have hr : ready = r := by
      simp only at h
      split at h
      · cases h
      · split at h
        · split at h
          · cases h
          · cases h; rfl
        · cases h; rfl
    subst hr
    intro x hx
    rcases h0 x hx with h | h
    · cases h
    · exact h

theorem release_sim (hR : ∀ n, R n n) (hg : ig.g.OK) (ht : Total ig) {st' st : Sched N T K} (h : StSim ig R st' st) {n' n : N}
    (hv : VerR ig R n' n) (status : BlockStatus) {pick' pick : Nat → Finset N → N}
    (hp : status = .success ∨ pick' = pick) :
    ERel (StSim ig R) (releaseBlock ig pick' st' n' status) (st.releaseBlock ig.g pick n status) := by
  unfold releaseBlock Sched.releaseBlock
  have h1 := removeFromProcessing_sim h hv
  rcases hz : st'.removeFromProcessing ig.g n' with e | x <;> rcases hy : st.removeFromProcessing ig.g n with e' | y <;>
    rw [hz, hy] at h1
  · exact h1
  · exact h1.elim
  · exact h1.elim
  · cases status with
    | success =>
      simp only
      have h2 := markSuccess_sim hg ht h1.rs hv.1
      rcases hz : markSuccess ig x.rs n' with e | ⟨r', x1⟩ <;> rcases hy : RS.markSuccess ig.g y.rs n with e' | ⟨r, y1⟩ <;>
        rw [hz, hy] at h2
      · exact h2
      · exact h2.elim
      · exact h2.elim
      · obtain ⟨h2, h3⟩ := h2
        simp only at h2
        subst h2
        simp only
        rw [hv.1.task]
        refine StSim.updateReady hR ht _ (StSim.modState (h1.withRs h3) _ _) ?_
        intro m hm
        exact hg.down_mem n hv.1.mem m (markSuccess_mem hy m hm)
    | failed =>
      simp only
      rw [hv.1.task, hv.1.key, (h1.queues _).retries]
      rcases hp with hp | rfl
      · cases hp
      split
      · have h2 := markFailure_sim hg ht pick' h1.rs hv.1
        rcases hz : markFailure ig pick' x.rs n' with e | ⟨r', x1⟩ <;>
          rcases hy : RS.markFailure ig.g pick' y.rs n with e' | ⟨r, y1⟩ <;> rw [hz, hy] at h2
        · exact h2
        · exact h2.elim
        · exact h2.elim
        · obtain ⟨h2, h3⟩ := h2
          simp only at h2
          subst h2
          have h4 := StSim.modState (h1.withRs h3) (ig.g.task n) (fun s => { s with failed := s.failed + 1 })
          refine ⟨h4.rs, ?_, h4.queues⟩
          unfold Sched.countOrphans
          simp only [h4.states]
      · refine StSim.modQueue (h1.queueReady hv) _ ?_
        intro q' q hq
        refine ⟨hq.processing, ?_, hq.readyRoots, hq.rootGen, hq.roots, hq.readyQueue⟩
        simp only [hq.retries]
    | created => rfl
    | processing => rfl

theorem init_sim (hg : ig.g.OK) : StSim ig R (Sched.init ig.g) (Sched.init ig.g) := by
  obtain ⟨h1, h2, _⟩ := Sched.init_totals (g := ig.g) ig.g.tasks (ig.g.rootTasks.foldl (fun st t =>
    (st.modState t (fun s => { s with ready := s.ready + ig.g.numRoots t })).modQueue t
      (fun _ => PQueue.init (ig.g.numRoots t) (ig.g.rootGen t)))
      (⟨RS.init, fun _ => TState.init, fun _ => PQueue.init 0 []⟩ : Sched N T K))
  have hrs : (Sched.init ig.g).rs = RS.init := by
    unfold Sched.init
    simp only
    rw [h1]
    exact Sched.init_rs _ _
  refine ⟨?_, rfl, ?_⟩
  · rw [hrs]
    constructor <;>
    · intro n _
      unfold Has
      simp [RS.init]
  · intro t
    have hq : (Sched.init ig.g).queues t = if t ∈ ig.g.rootTasks then PQueue.init (ig.g.numRoots t) (ig.g.rootGen t)
        else PQueue.init 0 [] := by
      unfold Sched.init
      simp only
      rw [h2, Sched.init_queues _ _ hg.rootTasks_nodup]
    rw [hq]
    refine ⟨rfl, rfl, rfl, rfl, ?_, ?_⟩
    · split
      · rename_i h
        exact fun n hn => ((hg.rootGen_mem t h n).1 hn).1
      · intro n hn
        cases hn
    · split <;> exact .nil

theorem getNext_sim (hR : ∀ n, R n n) (ht : Total ig) {q' q : PQueue N K} (h : QSim ig R q' q) :
    ERel (fun a b => Option.Rel (VerR ig R) a.1 b.1 ∧ QSim ig R a.2 b.2) q'.getNext q.getNext := by
  unfold PQueue.getNext PQueue.numReady
  rw [h.readyRoots, h.readyQueue.length_eq, h.rootGen]
  split
  · split
    · rcases hr : q.rootGen with _ | ⟨n, gen⟩
      · rfl
      · refine ⟨.some (.self hR ht (h.roots n (by rw [hr]; exact List.mem_cons_self ..))), ?_⟩
        exact ⟨h.processing, h.retries, rfl, rfl,
          fun x hx => h.roots x (by rw [hr]; exact List.mem_cons_of_mem _ hx), h.readyQueue⟩
    · have h1 := h.readyQueue
      rcases hr' : q'.readyQueue with _ | ⟨n', l'⟩ <;> rcases hr : q.readyQueue with _ | ⟨n, l⟩ <;> rw [hr', hr] at h1
      · rfl
      · cases h1
      · cases h1
      · cases h1 with
        | cons h1 h2 => exact ⟨.some h1, h.processing, h.retries, rfl, rfl, h.roots, h2⟩
  · exact ⟨.none, h⟩

theorem acquireLoop_congr (g : DGraph N T K) (t : T) : ∀ (fuel : Nat) (chk chk' : Nat → N → Check) (k : Nat)
    (st : Sched N T K) (skips : List N), (∀ j ≥ k, chk j = chk' j) →
    Sched.acquireLoop g t fuel chk k st skips = Sched.acquireLoop g t fuel chk' k st skips := by
  intro fuel
  induction fuel with
  | zero => intros; rfl
  | succ fuel ih =>
    intro chk chk' k st skips h
    unfold Sched.acquireLoop
    rw [h k (le_refl _)]
    rcases (st.queues t).getNext with e | ⟨o, q⟩
    · rfl
    · cases o with
      | none => rfl
      | some n =>
        simp only
        split
        · split
          · rfl
          · exact ih _ _ _ _ _ (fun j hj => h j (by omega))
        · rfl

theorem acquireLoop_sim (hR : ∀ n, R n n) (hg : ig.g.OK) (ht : Total ig) (t : T) : ∀ (fuel : Nat) (chk' : Nat → N → Check) (k : Nat)
    {st' st : Sched N T K} {skips' skips : List N}, StSim ig R st' st → List.Forall₂ (VerR ig R) skips' skips →
    ∃ chk, ERel (fun a b => List.Forall₂ (VerR ig R) a.1 b.1 ∧ Option.Rel (VerR ig R) a.2.1 b.2.1 ∧ StSim ig R a.2.2 b.2.2)
      (acquireLoop ig t fuel chk' k st' skips') (Sched.acquireLoop ig.g t fuel chk k st skips) := by
  intro fuel
  induction fuel with
  | zero => intro chk' _ _ _ _ _ _ _; exact ⟨chk', rfl⟩
  | succ fuel ih =>
    intro chk' k st' st skips' skips h hs
    have h1 := getNext_sim hR ht (h.queues t)
    rcases hz : (st'.queues t).getNext with e | ⟨o', q'⟩ <;> rcases hy : (st.queues t).getNext with e' | ⟨o, q⟩ <;>
      rw [hz, hy] at h1
    · refine ⟨chk', ?_⟩
      unfold acquireLoop Sched.acquireLoop
      rw [hz, hy]
      exact h1
    · exact h1.elim
    · exact h1.elim
    · obtain ⟨h1, h2⟩ := h1
      simp only at h1 h2
      cases h1 with
      | none =>
        refine ⟨chk', ?_⟩
        unfold acquireLoop Sched.acquireLoop
        rw [hz, hy]
        exact ⟨hs, .none, h.modQueue t (fun _ _ _ => h2)⟩
      | some hv =>
        rename_i n' n
        have h3 : StSim ig R ((st'.modQueue t (fun _ => q')).modState t
            (fun s => { s with ready := s.ready - 1, processing := s.processing + 1 }))
            ((st.modQueue t (fun _ => q)).modState t
            (fun s => { s with ready := s.ready - 1, processing := s.processing + 1 })) :=
          StSim.modState (h.modQueue t (fun _ _ _ => h2)) _ _
        have hins : ∀ a b : PQueue N K, QSim ig R a b → QSim ig R { a with processing := insert (ig.g.key n') a.processing }
            { b with processing := insert (ig.g.key n) b.processing } := by
          intro a b hab
          refine ⟨?_, hab.retries, hab.readyRoots, hab.rootGen, hab.roots, hab.readyQueue⟩
          simp only [hab.processing, hv.1.key]
        by_cases hc : Sched.precheck (chk' k n') = true
        · have h4 := StSim.modQueue (StSim.modState h3 t (fun s => { s with skipped := s.skipped + 1 })) t hins
          have h5 := release_sim hR hg ht h4 hv .success (pick' := fun _ _ => n') (pick := fun _ _ => n) (.inl rfl)
          generalize hA : ((((st'.modQueue t (fun _ => q')).modState t
            (fun s => { s with ready := s.ready - 1, processing := s.processing + 1 })).modState t
            (fun s => { s with skipped := s.skipped + 1 })).modQueue t
            (fun q => { q with processing := insert (ig.g.key n') q.processing })) = A at h5
          generalize hB : ((((st.modQueue t (fun _ => q)).modState t
            (fun s => { s with ready := s.ready - 1, processing := s.processing + 1 })).modState t
            (fun s => { s with skipped := s.skipped + 1 })).modQueue t
            (fun q => { q with processing := insert (ig.g.key n) q.processing })) = B at h5
          rcases hzz : releaseBlock ig (fun _ _ => n') A n' .success with e | x <;>
            rcases hyy : B.releaseBlock ig.g (fun _ _ => n) n .success with e' | y <;> rw [hzz, hyy] at h5
          · refine ⟨fun j m => chk' j n', ?_⟩
            unfold acquireLoop Sched.acquireLoop
            rw [hz, hy]
            simp only
            rw [if_pos hc, if_pos hc, hA, hB, hzz, hyy]
            exact h5
          · exact h5.elim
          · exact h5.elim
          · obtain ⟨chk, h6⟩ := ih chk' (k + 1) h5 (List.rel_append hs (.cons hv .nil))
            refine ⟨fun j => if j = k then fun _ => chk' k n' else chk j, ?_⟩
            unfold acquireLoop Sched.acquireLoop
            rw [hz, hy]
            simp only [if_true]
            rw [if_pos hc, if_pos hc, hA, hB, hzz, hyy]
            simp only
            rw [acquireLoop_congr ig.g t fuel _ chk (k + 1) y _ (fun j hj => if_neg (by omega))]
            exact h6
        · refine ⟨fun j m => chk' j n', ?_⟩
          unfold acquireLoop Sched.acquireLoop
          rw [hz, hy]
          simp only
          rw [if_neg hc, if_neg hc]
          exact ⟨hs, .some hv, StSim.modQueue (StSim.modState h3 t _) t hins⟩

end Verif.ById
