import Verif.Spec.Graph
import Mathlib.Data.Finset.Card
import Mathlib.Tactic.Linarith

/-! # Invariant of the ready surface -/

namespace Verif

open Spec

variable {N T K : Type}

namespace DGraph

/-- Strict descendants of a set of nodes. -/
def Below (g : DGraph N T K) (F : N → Prop) (n : N) : Prop := ∃ f, F f ∧ Anc g f n

/-- No node has two elements of `F` before it, or a direct upstream node in `S` and two others in `F` or below it. -/
def Exact (g : DGraph N T K) (S F : N → Prop) : Prop :=
  ∀ n ∈ g.nodes, (∀ f f', F f → F f' → Anc g f n → Anc g f' n → f = f') ∨
    ∀ u ∈ g.up n, ∀ p ∈ g.up n, ∀ q ∈ g.up n, u ≠ p → u ≠ q → S u → F p ∨ g.Below F p → F q ∨ g.Below F q → p = q

variable {g : DGraph N T K}

theorem Below.mono {F F' : N → Prop} (h : ∀ x, F x → F' x) {n : N} (hn : g.Below F n) : g.Below F' n := by
  obtain ⟨f, h1, h2⟩ := hn
  exact ⟨f, h f h1, h2⟩

theorem Exact.mono {S S' F F' : N → Prop} (h : g.Exact S' F') (hs : ∀ x, S x → S' x) (hf : ∀ x, F x → F' x) :
    g.Exact S F := by
  intro n hn
  rcases h n hn with h | h
  · exact Or.inl fun f f' h1 h2 => h f f' (hf f h1) (hf f' h2)
  · exact Or.inr fun u hu p hp q hq h1 h2 h3 h4 h5 =>
      h u hu p hp q hq h1 h2 (hs u h3) (h4.imp (hf p) (Below.mono hf)) (h5.imp (hf q) (Below.mono hf))

theorem OK.anc_mem (hg : g.OK) {a b : N} (h : Anc g a b) (hb : b ∈ g.nodes) : a ∈ g.nodes := by
  induction h using Relation.TransGen.head_induction_on with
  | single h => exact hg.up_mem _ hb _ h
  | head h _ ih => exact hg.up_mem _ ih _ h

theorem OK.not_up_self (hg : g.OK) {n : N} (hn : n ∈ g.nodes) : n ∉ g.up n := by
  obtain ⟨rank, hr⟩ := hg.acyclic
  intro h
  exact absurd (hr n hn n h) (lt_irrefl _)

theorem OK.anc_rank (hg : g.OK) : ∃ rank : N → Nat, (∀ b ∈ g.nodes, ∀ a ∈ g.up b, rank a < rank b) ∧
    ∀ a b, b ∈ g.nodes → Anc g a b → rank a < rank b := by
  obtain ⟨rank, hr⟩ := hg.acyclic
  refine ⟨rank, hr, ?_⟩
  intro a b hb h
  induction h using Relation.TransGen.head_induction_on with
  | single h => exact hr _ hb _ h
  | head h h' ih => exact lt_trans (hr _ (hg.anc_mem h' hb) _ h) ih

theorem OK.anc_irrefl (hg : g.OK) {n : N} (hn : n ∈ g.nodes) : ¬ Anc g n n := by
  obtain ⟨rank, _, hr⟩ := hg.anc_rank
  intro h
  exact absurd (hr n n hn h) (lt_irrefl _)

end DGraph

/-- `S`: succeeded nodes, `F`: permanently failed nodes. -/
structure RS.Inv (g : DGraph N T K) (rs : RS N) (S F : N → Prop) : Prop where
  sNode : ∀ n, S n → n ∈ g.nodes
  fNode : ∀ n, F n → n ∈ g.nodes
  sUp : ∀ n, S n → ∀ u ∈ g.up n, S u
  fUp : ∀ n, F n → ∀ u ∈ g.up n, S u
  disj : ∀ n, S n → ¬ F n
  surf : ∀ n ∈ rs.surface, S n
  bdry : ∀ n ∈ rs.boundary, n ∈ g.nodes ∧ (F n ∨ g.Below F n)
  keep : ∀ u, S u → ∀ d ∈ g.down u, ¬ S d → ¬ F d → ¬ g.Below F d → u ∈ rs.surface

/-- An orphan is in the boundary unless one of its upstream nodes has succeeded. -/
def RS.Lost (g : DGraph N T K) (rs : RS N) (S F : N → Prop) : Prop :=
  ∀ m ∈ g.nodes, g.Below F m → m ∈ rs.boundary ∨ ∃ u ∈ g.up m, S u

namespace RS

variable {g : DGraph N T K} {S F : N → Prop}

theorem Inv.sAnc {rs : RS N} (h : Inv g rs S F) {a b : N} (hab : Anc g a b) (hb : S b) : S a := by
  induction hab using Relation.TransGen.head_induction_on with
  | single e => exact h.sUp _ hb _ e
  | head e _ ih => exact h.sUp _ ih _ e

theorem Inv.below_not_s {rs : RS N} (h : Inv g rs S F) {n : N} (hn : g.Below F n) : ¬ S n := by
  obtain ⟨f, hf, ha⟩ := hn
  intro hs
  exact h.disj f (h.sAnc ha hs) hf

theorem Inv.up_s_not_below {rs : RS N} (h : Inv g rs S F) {n : N} (hn : ∀ u ∈ g.up n, S u) :
    ¬ g.Below F n := by
  rintro ⟨f, hf, ha⟩
  rcases Relation.TransGen.tail'_iff.1 ha with ⟨u, h1, h2⟩
  have hu := hn u h2
  rcases Relation.reflTransGen_iff_eq_or_transGen.1 h1 with rfl | h1
  · exact h.disj _ hu hf
  · exact h.disj _ (h.sAnc h1 hu) hf

theorem Inv.below_not_f {rs : RS N} (h : Inv g rs S F) {n : N} (hn : g.Below F n) : ¬ F n :=
  fun hf => h.up_s_not_below (h.fUp n hf) hn

theorem Inv.init : Inv g RS.init (fun _ => False) (fun _ => False) where
  sNode := fun _ h => h.elim
  fNode := fun _ h => h.elim
  sUp := fun _ h => h.elim
  fUp := fun _ h => h.elim
  disj := fun _ h => h.elim
  surf := fun n h => absurd h (Finset.notMem_empty n)
  bdry := fun n h => absurd h (Finset.notMem_empty n)
  keep := fun _ h => h.elim

variable [DecidableEq N]

theorem addToBoundary_true {rs rs' : RS N} {m : N} (h : addToBoundary g rs m = (true, rs')) :
    m ∉ rs.boundary ∧ (∃ u ∈ g.up m, u ∈ rs.boundary) ∧
      rs' = { rs with boundary := insert m rs.boundary } := by
  unfold addToBoundary at h
  split at h
  · rename_i hc
    exact ⟨hc.1, hc.2, (Prod.mk.inj h).2.symm⟩
  · cases (Prod.mk.inj h).1

theorem addToBoundary_false {rs rs' : RS N} {m : N} (h : addToBoundary g rs m = (false, rs')) :
    (m ∈ rs.boundary ∨ ∀ u ∈ g.up m, u ∉ rs.boundary) ∧ rs' = rs := by
  unfold addToBoundary at h
  split at h
  · cases (Prod.mk.inj h).1
  · rename_i hc
    refine ⟨?_, (Prod.mk.inj h).2.symm⟩
    by_contra hcon
    push Not at hcon
    exact hc hcon

theorem Inv.addTrue {rs rs' : RS N} (hi : Inv g rs S F) {m : N} (hm : m ∈ g.nodes)
    (h : addToBoundary g rs m = (true, rs')) : Inv g rs' S F ∧ g.Below F m := by
  obtain ⟨_, ⟨u, hu, hub⟩, rfl⟩ := addToBoundary_true h
  have hb : g.Below F m := by
    rcases (hi.bdry u hub).2 with hf | ⟨f, hf, ha⟩
    · exact ⟨u, hf, Relation.TransGen.single hu⟩
    · exact ⟨f, hf, Relation.TransGen.tail ha hu⟩
  refine ⟨{ hi with bdry := ?_, surf := hi.surf, keep := hi.keep }, hb⟩
  intro n hn
  rcases Finset.mem_insert.1 hn with rfl | hn
  · exact ⟨hm, Or.inr hb⟩
  · exact hi.bdry n hn

omit [DecidableEq N] in
/-- Nodes may be taken from the boundary. -/
theorem Inv.mono_boundary {rs rs' : RS N} (hi : Inv g rs S F) (hs : rs'.surface = rs.surface)
    (hb : rs'.boundary ⊆ rs.boundary) : Inv g rs' S F :=
  { hi with
    surf := by rw [hs]; exact hi.surf
    bdry := fun n hn => hi.bdry n (hb hn)
    keep := by rw [hs]; exact hi.keep }

theorem removeFromBoundary_surface (rs : RS N) (n : N) :
    (rs.removeFromBoundary g n).surface = rs.surface := by
  unfold removeFromBoundary; split <;> rfl

theorem removeFromBoundary_boundary (rs : RS N) (n : N) :
    (rs.removeFromBoundary g n).boundary ⊆ rs.boundary := by
  unfold removeFromBoundary; split
  · exact Finset.erase_subset _ _
  · exact Finset.Subset.refl _

theorem removeFromBoundary_keep (rs : RS N) {n x : N} (hx : x ∈ rs.boundary) (hne : x ≠ n) :
    x ∈ (rs.removeFromBoundary g n).boundary := by
  unfold removeFromBoundary; split
  · exact Finset.mem_erase.2 ⟨hne, hx⟩
  · exact hx

theorem foldRemove_keep (l : List (N × Int)) (x : N) (hl : ∀ p ∈ l, p.1 ≠ x) : ∀ rs : RS N,
    x ∈ rs.boundary →
    x ∈ (l.foldl (fun r dc => if dc.2 < 0 then r.removeFromBoundary g dc.1 else r) rs).boundary := by
  induction l with
  | nil => intro rs h; exact h
  | cons y l ih =>
    intro rs h
    simp only [List.foldl_cons]
    have ih := ih (fun p hp => hl p (List.mem_cons_of_mem _ hp))
    by_cases hy : y.2 < 0
    · rw [if_pos hy]
      exact ih _ (removeFromBoundary_keep rs h (fun e => hl y List.mem_cons_self e.symm))
    · rw [if_neg hy]
      exact ih _ h

theorem foldRemove (l : List (N × Int)) : ∀ rs : RS N,
    (l.foldl (fun r dc => if dc.2 < 0 then r.removeFromBoundary g dc.1 else r) rs).surface = rs.surface ∧
    (l.foldl (fun r dc => if dc.2 < 0 then r.removeFromBoundary g dc.1 else r) rs).boundary ⊆
      rs.boundary := by
  induction l with
  | nil => intro rs; exact ⟨rfl, Finset.Subset.refl _⟩
  | cons x l ih =>
    intro rs
    simp only [List.foldl_cons]
    by_cases hx : x.2 < 0
    · rw [if_pos hx]
      obtain ⟨h1, h2⟩ := ih (rs.removeFromBoundary g x.1)
      exact ⟨h1.trans (removeFromBoundary_surface rs x.1),
        h2.trans (removeFromBoundary_boundary rs x.1)⟩
    · rw [if_neg hx]
      exact ih rs

theorem contained_pos {rs : RS N} {d : N} (h : 0 < (rs.contained d).natAbs) :
    d ∈ rs.surface ∨ d ∈ rs.boundary := by
  unfold contained at h
  by_contra hcon
  push Not at hcon
  rw [if_neg hcon.1, if_neg hcon.2] at h
  simp at h

theorem cleanUp_spec (hg : g.OK) {rs : RS N} (hi : Inv g rs S F) {u : N} (hu : u ∈ rs.surface) :
    ∃ rs', cleanUp g rs u = .ok rs' ∧ Inv g rs' S F ∧ rs'.surface ⊆ rs.surface ∧
      (∀ x ∈ rs.surface, x ≠ u → x ∈ rs'.surface) ∧ rs'.boundary ⊆ rs.boundary ∧
      (∀ x ∈ rs.boundary, x ∈ rs'.boundary ∨ ∃ u ∈ g.up x, S u) := by
  unfold cleanUp
  by_cases hall : ((g.down u).map rs.contained).all (fun c => 0 < c.natAbs) = true
  · simp only [hall, if_true]
    rw [setRemove, if_pos hu]
    obtain ⟨h1, h2⟩ := foldRemove (g := g) ((g.down u).zip ((g.down u).map rs.contained))
      { rs with surface := rs.surface.erase u }
    refine ⟨_, rfl, ?_, ?_, ?_, h2, ?_⟩
    · refine Inv.mono_boundary (rs := { rs with surface := rs.surface.erase u }) ?_ h1 h2
      refine { hi with surf := ?_, keep := ?_, bdry := hi.bdry }
      · intro n hn
        exact hi.surf n (Finset.mem_of_mem_erase hn)
      · intro v hv d hd h3 h4 h5
        have hk := hi.keep v hv d hd h3 h4 h5
        refine Finset.mem_erase.2 ⟨?_, hk⟩
        rintro rfl
        rw [List.all_eq_true] at hall
        have hc := hall _ (List.mem_map.2 ⟨d, hd, rfl⟩)
        rcases contained_pos (of_decide_eq_true hc) with h6 | h6
        · exact h3 (hi.surf d h6)
        · rcases (hi.bdry d h6).2 with h7 | h7
          · exact h4 h7
          · exact h5 h7
    · rw [h1]; exact Finset.erase_subset _ _
    · intro x hx hne
      rw [h1]; exact Finset.mem_erase.2 ⟨hne, hx⟩
    · intro x hx
      by_cases hxd : x ∈ g.down u
      · have hun := hi.sNode u (hi.surf u hu)
        exact Or.inr ⟨u, (hg.dual u hun x (hg.down_mem u hun x hxd)).1 hxd, hi.surf u hu⟩
      · refine Or.inl (foldRemove_keep _ x ?_ _ hx)
        rintro ⟨a, b⟩ hp rfl
        exact hxd (List.of_mem_zip hp).1
  · simp only [hall, Bool.false_eq_true, if_false]
    exact ⟨rs, rfl, hi, Finset.Subset.refl _, fun x hx _ => hx, Finset.Subset.refl _,
      fun x hx => Or.inl hx⟩

theorem cleanUps_spec (hg : g.OK) : ∀ (us : List N) {rs : RS N}, Inv g rs S F → us.Nodup →
    (∀ u ∈ us, u ∈ rs.surface) →
    ∃ rs', cleanUps g us rs = .ok rs' ∧ Inv g rs' S F ∧ rs'.surface ⊆ rs.surface ∧
      (∀ x ∈ rs.surface, x ∉ us → x ∈ rs'.surface) ∧ rs'.boundary ⊆ rs.boundary ∧
      (∀ x ∈ rs.boundary, x ∈ rs'.boundary ∨ ∃ u ∈ g.up x, S u)
  | [], rs, hi, _, _ => ⟨rs, rfl, hi, Finset.Subset.refl _, fun x hx _ => hx, Finset.Subset.refl _,
      fun x hx => Or.inl hx⟩
  | u :: us, rs, hi, hnd, hs => by
    obtain ⟨rs1, h1, h2, h3, h4, h5, h6⟩ := cleanUp_spec hg hi (hs u List.mem_cons_self)
    obtain ⟨hu, hnd'⟩ := List.nodup_cons.1 hnd
    obtain ⟨rs2, k1, k2, k3, k4, k5, k6⟩ := cleanUps_spec hg us h2 hnd' (fun v hv =>
      h4 v (hs v (List.mem_cons_of_mem _ hv)) (fun e => hu (e ▸ hv)))
    refine ⟨rs2, ?_, k2, k3.trans h3, ?_, k5.trans h5, fun x hx => ?_⟩
    · simp only [cleanUps, h1]; exact k1
    · intro x hx hne
      rw [List.mem_cons, not_or] at hne
      exact k4 x (h4 x hx hne.1) hne.2
    · rcases h6 x hx with h | h
      · exact k6 x h
      · exact Or.inr h

theorem scanDown_spec : ∀ (ms : List N) {rs : RS N} (ready : List N), Inv g rs S F →
    (∀ m ∈ ms, m ∈ g.nodes) →
    ∃ ready' rs', scanDown g ms rs ready = (ready ++ ready', rs') ∧ Inv g rs' S F ∧
      rs'.surface = rs.surface ∧ rs.boundary ⊆ rs'.boundary ∧
      ready' = ms.filter (fun m => decide (∀ u ∈ g.up m, u ∈ rs.surface))
  | [], rs, ready, hi, _ => ⟨[], rs, by simp [scanDown], hi, rfl, Finset.Subset.refl _, rfl⟩
  | m :: ms, rs, ready, hi, hm => by
    have hm' : ∀ x ∈ ms, x ∈ g.nodes := fun x hx => hm x (List.mem_cons_of_mem _ hx)
    simp only [scanDown]
    rcases hadd : addToBoundary g rs m with ⟨_ | _, rs'⟩
    · obtain ⟨_, rfl⟩ := addToBoundary_false hadd
      simp only
      by_cases hall : ∀ u ∈ g.up m, u ∈ rs'.surface
      · rw [if_pos hall]
        obtain ⟨r2, rs2, e1, e2, e3, e0, e4⟩ := scanDown_spec ms (ready ++ [m]) hi hm'
        refine ⟨m :: r2, rs2, ?_, e2, e3, e0, ?_⟩
        · rw [e1]; simp
        · rw [List.filter_cons, if_pos (decide_eq_true hall), e4]
      · rw [if_neg hall]
        obtain ⟨r2, rs2, e1, e2, e3, e0, e4⟩ := scanDown_spec ms ready hi hm'
        refine ⟨r2, rs2, e1, e2, e3, e0, ?_⟩
        rw [List.filter_cons, if_neg (by simpa using hall), e4]
    · obtain ⟨hi', hbel⟩ := hi.addTrue (hm m List.mem_cons_self) hadd
      obtain ⟨_, _, hrs⟩ := addToBoundary_true hadd
      have hs : rs'.surface = rs.surface := by rw [hrs]
      simp only
      obtain ⟨r2, rs2, e1, e2, e3, e0, e4⟩ := scanDown_spec ms ready hi' hm'
      refine ⟨r2, rs2, e1, e2, e3.trans hs, (Finset.subset_insert m _).trans (by rw [hrs] at e0; exact e0), ?_⟩
      rw [List.filter_cons, if_neg, e4, hs]
      intro hall
      have hall := of_decide_eq_true hall
      exact hi.up_s_not_below (fun u hu => hi.surf u (hall u hu)) hbel

/-- `mark_success` on a node whose upstream nodes have succeeded. -/
theorem markSuccess_spec (hg : g.OK) {rs : RS N} (hi : Inv g rs S F) (hlo : Lost g rs S F) {n : N}
    (hn : n ∈ g.nodes)
    (hup : ∀ u ∈ g.up n, S u) (hs : ¬ S n) (hf : ¬ F n) :
    ∃ ready rs', markSuccess g rs n = .ok (ready, rs') ∧
      Inv g rs' (fun x => S x ∨ x = n) F ∧ Lost g rs' (fun x => S x ∨ x = n) F ∧ ready.Nodup ∧
      ∀ m, m ∈ ready ↔ m ∈ g.nodes ∧ n ∈ g.up m ∧ ∀ u ∈ g.up m, S u ∨ u = n := by
  have hnb := hi.up_s_not_below hup
  have hsurf : ∀ u ∈ g.up n, u ∈ rs.surface := fun u hu =>
    hi.keep u (hup u hu) n ((hg.dual u (hg.up_mem n hn u hu) n hn).2 hu) hs hf hnb
  have hi1 : Inv g { rs with surface := insert n rs.surface } (fun x => S x ∨ x = n) F := by
    refine ⟨?_, hi.fNode, ?_, ?_, ?_, ?_, hi.bdry, ?_⟩
    · rintro x (hx | rfl)
      · exact hi.sNode x hx
      · exact hn
    · rintro x (hx | rfl) u hu
      · exact Or.inl (hi.sUp x hx u hu)
      · exact Or.inl (hup u hu)
    · intro x hx u hu
      exact Or.inl (hi.fUp x hx u hu)
    · rintro x (hx | rfl)
      · exact hi.disj x hx
      · exact hf
    · intro x hx
      rcases Finset.mem_insert.1 hx with rfl | hx
      · exact Or.inr rfl
      · exact Or.inl (hi.surf x hx)
    · rintro u (hu | rfl) d hd h1 h2 h3
      · refine Finset.mem_insert_of_mem (hi.keep u hu d hd (fun h => h1 (Or.inl h)) h2 h3)
      · exact Finset.mem_insert_self _ _
  obtain ⟨ready, rs2, e1, e2, e3, e0, e4⟩ := scanDown_spec (g.down n) [] hi1 (hg.down_mem n hn)
  obtain ⟨rs3, k1, k2, k3, k4, _, k6⟩ := cleanUps_spec hg (g.up n) e2 (hg.up_nodup n hn) (by
    intro u hu
    rw [e3]
    exact Finset.mem_insert_of_mem (hsurf u hu))
  have hlost : ∀ m ∈ g.nodes, g.Below F m → m ∈ rs3.boundary ∨ ∃ u ∈ g.up m, S u ∨ u = n := by
    intro m hm hmb
    rcases hlo m hm hmb with h | ⟨u, h1, h2⟩
    · exact k6 m (e0 h)
    · exact Or.inr ⟨u, h1, Or.inl h2⟩
  have hready : ready.Nodup ∧
      ∀ m, m ∈ ready ↔ m ∈ g.nodes ∧ n ∈ g.up m ∧ ∀ u ∈ g.up m, S u ∨ u = n := by
    rw [e4]
    refine ⟨(hg.down_nodup n hn).filter _, ?_⟩
    intro m
    rw [List.mem_filter, decide_eq_true_iff]
    constructor
    · rintro ⟨h1, h2⟩
      have hm := hg.down_mem n hn m h1
      exact ⟨hm, (hg.dual n hn m hm).1 h1, fun u hu => hi1.surf u (h2 u hu)⟩
    · rintro ⟨hm, h1, h2⟩
      refine ⟨(hg.dual n hn m hm).2 h1, fun u hu => ?_⟩
      have hum := hg.up_mem m hm u hu
      refine hi1.keep u (h2 u hu) m ((hg.dual u hum m hm).2 hu) ?_ ?_ ?_
      · rintro (hc | rfl)
        · exact hs (hi.sUp m hc n h1)
        · exact hg.not_up_self hm h1
      · intro hc
        exact hs (hi.fUp m hc n h1)
      · exact hi1.up_s_not_below h2
  unfold markSuccess
  simp only
  rw [if_neg (not_not.2 hsurf), e1]
  simp only [List.nil_append, k1]
  by_cases hd : (g.down n).isEmpty = true
  · rw [if_pos hd]
    have hd' : g.down n = [] := List.isEmpty_iff.1 hd
    have hmem : n ∈ rs3.surface := k4 n (by rw [e3]; exact Finset.mem_insert_self _ _)
      (hg.not_up_self hn)
    rw [setRemove, if_pos hmem]
    refine ⟨ready, _, rfl, ?_, hlost, hready⟩
    refine { k2 with surf := ?_, keep := ?_, bdry := k2.bdry }
    · intro x hx
      exact k2.surf x (Finset.mem_of_mem_erase hx)
    · intro u hu d hdd h1 h2 h3
      refine Finset.mem_erase.2 ⟨?_, k2.keep u hu d hdd h1 h2 h3⟩
      rintro rfl
      rw [hd'] at hdd
      cases hdd
  · rw [if_neg hd]
    exact ⟨ready, rs3, rfl, k2, hlost, hready⟩

/-! ### mark_failure -/

/-- Everything that holds at the head of the `while` loop of `mark_failure`. -/
structure LoopInv (g : DGraph N T K) (S F : N → Prop) (n : N) (b0 : Finset N)
    (work : Finset N) (rs : RS N) (orphans : Finset N) : Prop where
  inv : Inv g rs S (fun x => F x ∨ x = n)
  nb : n ∈ rs.boundary
  ob : orphans ⊆ rs.boundary
  bb : ∀ x ∈ rs.boundary, x ∈ b0 ∨ x = n ∨ x ∈ orphans
  b0b : b0 ⊆ rs.boundary
  o_new : ∀ x ∈ orphans, x ∉ b0
  o_up : ∀ x ∈ orphans, ∃ p ∈ g.up x, p = n ∨ p ∈ orphans
  o_anc : ∀ x ∈ orphans, x ∈ g.nodes ∧ Anc g n x
  w_node : ∀ x ∈ work, x ∈ g.nodes
  w_up : ∀ x ∈ work, ∃ p ∈ g.up x, p = n ∨ p ∈ orphans
  closed : ∀ p, p = n ∨ p ∈ orphans → ∀ x ∈ g.down p, x ∈ work ∨ x ∈ orphans ∨ g.Below F x

theorem orphanLoop_spec (hg : g.OK) {n : N} (hn : n ∈ g.nodes) (hns : ¬ S n)
    (pick : Nat → Finset N → N) (hp : ∀ k s, s.Nonempty → pick k s ∈ s) (b0 : Finset N)
    (hb0 : ∀ x ∈ b0, F x ∨ g.Below F x) (hFup : ∀ x, F x → ∀ u ∈ g.up x, S u) :
    ∀ (fuel k : Nat) (work : Finset N) (rs : RS N) (orphans : Finset N),
      LoopInv g S F n b0 work rs orphans →
      (g.nodes.length - orphans.card) * (g.nodes.length + 1) + work.card < fuel →
      ∃ orphans' rs', orphanLoop g pick fuel k work rs orphans = .ok (orphans', rs') ∧
        LoopInv g S F n b0 ∅ rs' orphans' ∧ rs'.surface = rs.surface
  | 0, _, _, _, _, _, hf => absurd hf (Nat.not_lt_zero _)
  | fuel + 1, k, work, rs, orphans, hl, hf => by
    unfold orphanLoop
    by_cases hw : work = ∅
    · rw [if_pos hw]
      subst hw
      exact ⟨orphans, rs, rfl, hl, rfl⟩
    · rw [if_neg hw]
      have hm : pick k work ∈ work := hp k work (Finset.nonempty_iff_ne_empty.2 hw)
      generalize pick k work = m at hm
      simp only [not_not.2 hm, if_false]
      have hmn := hl.w_node m hm
      obtain ⟨p, hpu, hpp⟩ := hl.w_up m hm
      have hpb : p ∈ rs.boundary := by
        rcases hpp with rfl | h
        · exact hl.nb
        · exact hl.ob h
      have hpanc : p = n ∨ Anc g n p := hpp.imp id (fun h => (hl.o_anc p h).2)
      have hmanc : Anc g n m := by
        rcases hpanc with rfl | h
        · exact Relation.TransGen.single hpu
        · exact Relation.TransGen.tail h hpu
      have hwork : work.card = (work.erase m).card + 1 := (Finset.card_erase_add_one hm).symm
      have cardle : ∀ s : Finset N, (∀ x ∈ s, x ∈ g.nodes) → s.card ≤ g.nodes.length := by
        intro s hs
        calc s.card ≤ g.nodes.toFinset.card :=
              Finset.card_le_card (fun x hx => List.mem_toFinset.2 (hs x hx))
          _ ≤ g.nodes.length := List.toFinset_card_le _
      rcases hadd : addToBoundary g rs m with ⟨_ | _, rs'⟩
      · obtain ⟨hor, rfl⟩ := addToBoundary_false hadd
        simp only
        have hmb : m ∈ rs'.boundary := by
          rcases hor with h | h
          · exact h
          · exact absurd hpb (h p hpu)
        refine orphanLoop_spec hg hn hns pick hp b0 hb0 hFup fuel (k + 1) _ rs' orphans ?_ (by omega)
        refine { hl with w_node := ?_, w_up := ?_, closed := ?_ }
        · intro x hx; exact hl.w_node x (Finset.mem_of_mem_erase hx)
        · intro x hx; exact hl.w_up x (Finset.mem_of_mem_erase hx)
        · intro q hq x hx
          rcases hl.closed q hq x hx with h | h
          · by_cases hxm : x = m
            · subst hxm
              right
              rcases hl.bb x hmb with h0 | rfl | h0
              · right
                rcases hb0 x h0 with h1 | h1
                · exfalso
                  have := hFup x h1 p hpu
                  rcases hpanc with rfl | h2
                  · exact hns this
                  · exact hns (hl.inv.sAnc h2 this)
                · exact h1
              · exact absurd hmanc (hg.anc_irrefl hn)
              · exact Or.inl h0
            · exact Or.inl (Finset.mem_erase.2 ⟨hxm, h⟩)
          · exact Or.inr h
      · obtain ⟨hmb, _, hrs⟩ := addToBoundary_true hadd
        obtain ⟨hi', _⟩ := hl.inv.addTrue hmn hadd
        simp only
        have hmo : m ∉ orphans := fun h => hmb (hl.ob h)
        have hbd : rs'.boundary = insert m rs.boundary := by rw [hrs]
        have hon : ∀ x ∈ insert m orphans, x ∈ g.nodes := by
          intro x hx
          rcases Finset.mem_insert.1 hx with rfl | hx
          · exact hmn
          · exact (hl.o_anc x hx).1
        have hwn : ∀ x ∈ work.erase m ∪ ((g.down m).toFinset \ orphans), x ∈ g.nodes := by
          intro x hx
          rcases Finset.mem_union.1 hx with hx | hx
          · exact hl.w_node x (Finset.mem_of_mem_erase hx)
          · exact hg.down_mem m hmn x (List.mem_toFinset.1 (Finset.mem_sdiff.1 hx).1)
        have hLI : LoopInv g S F n b0 (work.erase m ∪ ((g.down m).toFinset \ orphans)) rs'
            (insert m orphans) := by
          refine ⟨hi', ?_, ?_, ?_, ?_, ?_, ?_, ?_, hwn, ?_, ?_⟩
          · rw [hbd]; exact Finset.mem_insert_of_mem hl.nb
          · rw [hbd]; exact Finset.insert_subset_insert _ hl.ob
          · intro x hx
            rw [hbd] at hx
            rcases Finset.mem_insert.1 hx with rfl | hx
            · exact Or.inr (Or.inr (Finset.mem_insert_self _ _))
            · rcases hl.bb x hx with h | h | h
              · exact Or.inl h
              · exact Or.inr (Or.inl h)
              · exact Or.inr (Or.inr (Finset.mem_insert_of_mem h))
          · rw [hbd]; exact hl.b0b.trans (Finset.subset_insert _ _)
          · intro x hx
            rcases Finset.mem_insert.1 hx with rfl | hx
            · exact fun h => hmb (hl.b0b h)
            · exact hl.o_new x hx
          · intro x hx
            rcases Finset.mem_insert.1 hx with rfl | hx
            · exact ⟨p, hpu, hpp.imp id Finset.mem_insert_of_mem⟩
            · obtain ⟨q, h1, h2⟩ := hl.o_up x hx
              exact ⟨q, h1, h2.imp id Finset.mem_insert_of_mem⟩
          · intro x hx
            rcases Finset.mem_insert.1 hx with rfl | hx
            · exact ⟨hmn, hmanc⟩
            · exact hl.o_anc x hx
          · intro x hx
            rcases Finset.mem_union.1 hx with hx | hx
            · obtain ⟨q, hq, hqq⟩ := hl.w_up x (Finset.mem_of_mem_erase hx)
              exact ⟨q, hq, hqq.imp id Finset.mem_insert_of_mem⟩
            · have hxd := List.mem_toFinset.1 (Finset.mem_sdiff.1 hx).1
              exact ⟨m, (hg.dual m hmn x (hg.down_mem m hmn x hxd)).1 hxd,
                Or.inr (Finset.mem_insert_self _ _)⟩
          · intro q hq x hx
            by_cases hqm : q = m
            · subst hqm
              by_cases hxo : x ∈ orphans
              · exact Or.inr (Or.inl (Finset.mem_insert_of_mem hxo))
              · exact Or.inl (Finset.mem_union_right _
                  (Finset.mem_sdiff.2 ⟨List.mem_toFinset.2 hx, hxo⟩))
            · have hq' : q = n ∨ q ∈ orphans := by
                rcases hq with h | h
                · exact Or.inl h
                · rcases Finset.mem_insert.1 h with h | h
                  · exact absurd h hqm
                  · exact Or.inr h
              rcases hl.closed q hq' x hx with h | h | h
              · by_cases hxm : x = m
                · exact Or.inr (Or.inl (by rw [hxm]; exact Finset.mem_insert_self _ _))
                · exact Or.inl (Finset.mem_union_left _ (Finset.mem_erase.2 ⟨hxm, h⟩))
              · exact Or.inr (Or.inl (Finset.mem_insert_of_mem h))
              · exact Or.inr (Or.inr h)
        have hcard : (insert m orphans).card = orphans.card + 1 := Finset.card_insert_of_notMem hmo
        have h1 := cardle _ hon
        have h2 := cardle _ hwn
        have hstep : (g.nodes.length - (insert m orphans).card) * (g.nodes.length + 1) +
            (work.erase m ∪ ((g.down m).toFinset \ orphans)).card < fuel := by
          rw [hcard]
          have h3 : g.nodes.length - orphans.card = (g.nodes.length - (orphans.card + 1)) + 1 := by
            omega
          rw [h3, Nat.add_mul] at hf
          omega
        obtain ⟨o', rs2, e1, e2, e3⟩ := orphanLoop_spec hg hn hns pick hp b0 hb0 hFup fuel (k + 1)
          _ rs' (insert m orphans) hLI hstep
        refine ⟨o', rs2, e1, e2, e3.trans ?_⟩
        rw [hrs]

/-- `mark_failure` on a node whose upstream nodes have succeeded: the reported orphans are
descendants, and every descendant was reported now or was below an earlier failure. -/
theorem markFailure_spec (hg : g.OK) {rs : RS N} (hi : Inv g rs S F) (hlo : Lost g rs S F) {n : N}
    (hn : n ∈ g.nodes)
    (hup : ∀ u ∈ g.up n, S u) (hs : ¬ S n) (hf : ¬ F n)
    (pick : Nat → Finset N → N) (hp : ∀ k s, s.Nonempty → pick k s ∈ s) :
    ∃ orphans rs', markFailure g pick rs n = .ok (orphans, rs') ∧
      Inv g rs' S (fun x => F x ∨ x = n) ∧ Lost g rs' S (fun x => F x ∨ x = n) ∧
      (∀ x ∈ orphans, x ∈ g.nodes ∧ Anc g n x) ∧
      (∀ x ∈ g.nodes, Anc g n x → x ∈ orphans ∨ g.Below F x) ∧
      (∀ x ∈ orphans, x ∉ rs.boundary) ∧ ∀ x ∈ orphans, ∃ p ∈ g.up x, p = n ∨ p ∈ orphans := by
  have hnb := hi.up_s_not_below hup
  have hsurf : ∀ u ∈ g.up n, u ∈ rs.surface := fun u hu =>
    hi.keep u (hup u hu) n ((hg.dual u (hg.up_mem n hn u hu) n hn).2 hu) hs hf hnb
  have hbel : ∀ x, g.Below F x → g.Below (fun x => F x ∨ x = n) x := by
    rintro x ⟨f, h1, h2⟩
    exact ⟨f, Or.inl h1, h2⟩
  have hi1 : Inv g { rs with boundary := insert n rs.boundary } S (fun x => F x ∨ x = n) := by
    refine ⟨hi.sNode, ?_, hi.sUp, ?_, ?_, hi.surf, ?_, ?_⟩
    · rintro x (hx | rfl)
      · exact hi.fNode x hx
      · exact hn
    · rintro x (hx | rfl)
      · exact hi.fUp x hx
      · exact hup
    · rintro x hx (h | rfl)
      · exact hi.disj x hx h
      · exact hs hx
    · intro x hx
      rcases Finset.mem_insert.1 hx with rfl | hx
      · exact ⟨hn, Or.inl (Or.inr rfl)⟩
      · refine ⟨(hi.bdry x hx).1, ?_⟩
        rcases (hi.bdry x hx).2 with h | h
        · exact Or.inl (Or.inl h)
        · exact Or.inr (hbel x h)
    · intro u hu d hd h1 h2 h3
      exact hi.keep u hu d hd h1 (fun h => h2 (Or.inl h)) (fun h => h3 (hbel d h))
  have hLI : LoopInv g S F n rs.boundary (g.down n).toFinset
      { rs with boundary := insert n rs.boundary } ∅ := by
    refine ⟨hi1, Finset.mem_insert_self _ _, Finset.empty_subset _, ?_, Finset.subset_insert _ _,
      ?_, ?_, ?_, ?_, ?_, ?_⟩
    · intro x hx
      rcases Finset.mem_insert.1 hx with h | h
      · exact Or.inr (Or.inl h)
      · exact Or.inl h
    · intro x hx; exact absurd hx (Finset.notMem_empty _)
    · intro x hx; exact absurd hx (Finset.notMem_empty _)
    · intro x hx; exact absurd hx (Finset.notMem_empty _)
    · intro x hx; exact hg.down_mem n hn x (List.mem_toFinset.1 hx)
    · intro x hx
      have hx := List.mem_toFinset.1 hx
      exact ⟨n, (hg.dual n hn x (hg.down_mem n hn x hx)).1 hx, Or.inl rfl⟩
    · rintro p (rfl | h) x hx
      · exact Or.inl (List.mem_toFinset.2 hx)
      · exact absurd h (Finset.notMem_empty _)
  have hfuel : (g.nodes.length - (∅ : Finset N).card) * (g.nodes.length + 1) +
      (g.down n).toFinset.card < orphanFuel g := by
    have h1 : (g.down n).toFinset.card ≤ g.nodes.length := by
      calc (g.down n).toFinset.card ≤ g.nodes.toFinset.card :=
            Finset.card_le_card (fun x hx => List.mem_toFinset.2
              (hg.down_mem n hn x (List.mem_toFinset.1 hx)))
        _ ≤ g.nodes.length := List.toFinset_card_le _
    unfold orphanFuel
    rw [Finset.card_empty, Nat.sub_zero]
    nlinarith
  obtain ⟨orphans, rs2, e1, e2, e3⟩ := orphanLoop_spec hg hn hs pick hp rs.boundary
    (fun x hx => (hi.bdry x hx).2) hi.fUp (orphanFuel g) 0 _ _ _ hLI hfuel
  obtain ⟨rs3, k1, k2, k3, _, k5, k6⟩ := cleanUps_spec hg (g.up n) e2.inv (hg.up_nodup n hn) (by
    intro u hu
    rw [e3]
    exact hsurf u hu)
  have hdesc : ∀ x ∈ g.nodes, Anc g n x → x ∈ orphans ∨ g.Below F x := by
    intro x hx ha
    induction ha with
    | single he =>
      rcases e2.closed n (Or.inl rfl) _ ((hg.dual n hn _ hx).2 he) with h | h | h
      · exact absurd h (Finset.notMem_empty _)
      · exact Or.inl h
      · exact Or.inr h
    | @tail b c hb he ih =>
      have hbn := hg.up_mem _ hx _ he
      rcases ih hbn with h | ⟨f, hf1, hf2⟩
      · rcases e2.closed b (Or.inr h) _ ((hg.dual b hbn _ hx).2 he) with h | h | h
        · exact absurd h (Finset.notMem_empty _)
        · exact Or.inl h
        · exact Or.inr h
      · exact Or.inr ⟨f, hf1, Relation.TransGen.tail hf2 he⟩
  have hlost : ∀ m ∈ g.nodes, g.Below (fun x => F x ∨ x = n) m →
      m ∈ rs3.boundary ∨ ∃ u ∈ g.up m, S u := by
    intro m hm hmb
    have hold : g.Below F m → m ∈ rs3.boundary ∨ ∃ u ∈ g.up m, S u := by
      intro hb
      rcases hlo m hm hb with h | h
      · exact k6 m (e2.b0b h)
      · exact Or.inr h
    obtain ⟨f, hf | rfl, ha⟩ := hmb
    · exact hold ⟨f, hf, ha⟩
    · rcases hdesc m hm ha with h | h
      · exact k6 m (e2.ob h)
      · exact hold h
  unfold markFailure
  simp only
  rw [if_neg (not_not.2 hsurf), e1]
  simp only [k1]
  by_cases hu : (g.up n).isEmpty = true
  · rw [if_pos hu]
    have hu' : g.up n = [] := List.isEmpty_iff.1 hu
    have hmem : n ∈ rs3.boundary := by
      rw [hu'] at k1
      have : rs2 = rs3 := Except.ok.inj k1
      rw [← this]
      exact e2.nb
    rw [setRemove, if_pos hmem]
    refine ⟨orphans, _, rfl, ?_, ?_, e2.o_anc, hdesc, e2.o_new, e2.o_up⟩
    · exact k2.mono_boundary (rs' := { rs3 with boundary := rs3.boundary.erase n }) rfl
        (Finset.erase_subset _ _)
    · intro m hm hmb
      rcases hlost m hm hmb with h | h
      · refine Or.inl (Finset.mem_erase.2 ⟨?_, h⟩)
        rintro rfl
        exact k2.up_s_not_below hup hmb
      · exact Or.inr h
  · rw [if_neg hu]
    exact ⟨orphans, rs3, rfl, k2, hlost, e2.o_anc, hdesc, e2.o_new, e2.o_up⟩

/-- With at most two upstream nodes per node, no node is reported as orphan twice. -/
theorem orphans_new (hg : g.OK) {rs : RS N} (hi : Inv g rs S F) (hlo : Lost g rs S F) {n : N}
    (hn : n ∈ g.nodes) (hup : ∀ u ∈ g.up n, S u) (hns : ¬ S n) (hnf : ¬ F n) {orphans : Finset N}
    (h1 : ∀ x ∈ orphans, x ∈ g.nodes ∧ Anc g n x) (h2 : ∀ x ∈ orphans, x ∉ rs.boundary)
    (h3 : ∀ x ∈ orphans, ∃ p ∈ g.up x, p = n ∨ p ∈ orphans)
    (hex : g.Exact S fun x => F x ∨ x = n) : ∀ x ∈ orphans, ¬ g.Below F x := by
  obtain ⟨rank, hr⟩ := hg.acyclic
  have hdesc : ∀ x, Anc g n x → ¬ S x := fun x hx hs => hns (hi.sAnc hx hs)
  have key : ∀ k x, rank x < k → x ∈ orphans → ¬ g.Below F x := by
    intro k
    induction k with
    | zero => intro x hx; omega
    | succ k ih =>
      intro x hx hxo hb
      obtain ⟨hxn, hxa⟩ := h1 x hxo
      obtain ⟨u, hu, hus⟩ := (hlo x hxn hb).resolve_left (h2 x hxo)
      obtain ⟨p, hp, hpp⟩ := h3 x hxo
      obtain ⟨f, hf, ha⟩ := hb
      obtain ⟨q, hq1, hq2⟩ := Relation.TransGen.tail'_iff.1 ha
      have hqb : F q ∨ g.Below F q := by
        rcases Relation.reflTransGen_iff_eq_or_transGen.1 hq1 with rfl | h
        · exact Or.inl hf
        · exact Or.inr ⟨f, hf, h⟩
      have hqs : ¬ S q := by
        rcases hqb with h | h
        · exact fun hs => hi.disj q hs h
        · exact hi.below_not_s h
      have hps : ¬ S p := by
        rcases hpp with rfl | h
        · exact hns
        · exact hdesc p (h1 p h).2
      have hpq : p = q := by
        rcases hex x hxn with h | h
        · exact absurd (h f n (Or.inl hf) (Or.inr rfl) ha hxa ▸ hf) hnf
        · refine h u hu p hp q hq2 (fun e => hps (e ▸ hus)) (fun e => hqs (e ▸ hus)) hus ?_
            (hqb.imp Or.inl (DGraph.Below.mono fun _ => Or.inl))
          rcases hpp with rfl | h'
          · exact Or.inl (Or.inr rfl)
          · exact Or.inr ⟨n, Or.inr rfl, (h1 p h').2⟩
      subst hpq
      rcases hpp with rfl | hpo
      · rcases hqb with h | h
        · exact hnf h
        · exact hi.up_s_not_below hup h
      · rcases hqb with h | h
        · exact hi.up_s_not_below (hi.fUp p h) |>.elim (by
            exfalso
            have := h1 p hpo
            obtain ⟨w, hw1, hw2⟩ := Relation.TransGen.tail'_iff.1 this.2
            have hws := hi.fUp p h w hw2
            rcases Relation.reflTransGen_iff_eq_or_transGen.1 hw1 with rfl | h'
            · exact hns hws
            · exact hdesc w h' hws)
        · exact ih p (by have := hr x hxn p hp; omega) hpo h
  exact fun x hx => key (rank x + 1) x (Nat.lt_succ_self _) hx

end RS
end Verif
