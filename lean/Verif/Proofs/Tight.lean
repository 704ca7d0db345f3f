import Verif.Proofs.ReadySurface

/-! # The surface when every node has at most one downstream node -/

set_option linter.unusedSectionVars false

namespace Verif
namespace RS

open Spec

variable {N T K : Type} [DecidableEq N] {g : DGraph N T K} {S F : N → Prop}

/-- Every surface node still has an unfinished downstream node. -/
def Tight (g : DGraph N T K) (rs : RS N) (S F : N → Prop) : Prop :=
  ∀ u ∈ rs.surface, ∃ d ∈ g.down u, ¬ S d ∧ ¬ F d

/-- One iteration of the loop over upstream nodes, for an upstream node whose only downstream node
is `n`. -/
theorem cleanUp_one {rs rs' : RS N} {u n : N} (hd : g.down u = [n]) (hu : u ∈ rs.surface)
    (hc : n ∈ rs.surface ∧ n ∉ rs.boundary ∨ n ∉ rs.surface ∧ n ∈ rs.boundary)
    (h : cleanUp g rs u = .ok rs') :
    rs'.surface = rs.surface.erase u ∧
      (n ∈ rs.surface → n ∉ rs'.boundary) ∧
      (∀ v ∈ g.up n, v ∈ rs'.surface → n ∈ rs.boundary → n ∈ rs'.boundary) := by
  unfold cleanUp at h
  rcases hc with ⟨h1, h2⟩ | ⟨h1, h2⟩
  · simp only [hd, List.map_cons, List.map_nil, List.all_cons, List.all_nil, contained, h1, h2,
      if_true, if_false, setRemove, hu] at h
    simp at h
    subst h
    exact ⟨rfl, fun _ => h2, fun _ _ _ hb => hb⟩
  · simp only [hd, List.map_cons, List.map_nil, List.all_cons, List.all_nil, contained, h1, h2,
      if_true, if_false, setRemove, hu] at h
    simp at h
    subst h
    unfold removeFromBoundary
    split
    · rename_i hc
      refine ⟨rfl, fun hn => absurd hn h1, fun v hv hvs _ => absurd hvs (hc.2 v hv)⟩
    · exact ⟨rfl, fun hn => absurd hn h1, fun _ _ _ hb => hb⟩

theorem cleanUps_one {n : N} : ∀ (us : List N) {rs rs' : RS N}, (∀ u ∈ us, g.down u = [n]) →
    us.Nodup → (∀ u ∈ us, u ∈ rs.surface) → (∀ u ∈ us, u ∈ g.up n) → n ∉ us →
    (n ∈ rs.surface ∧ n ∉ rs.boundary ∨ n ∉ rs.surface ∧ n ∈ rs.boundary) →
    cleanUps g us rs = .ok rs' →
    rs'.surface ⊆ rs.surface ∧ ∀ u ∈ us, u ∉ rs'.surface
  | [], rs, rs', _, _, _, _, _, _, h => by
    cases h
    exact ⟨Finset.Subset.refl _, fun u hu => absurd hu List.not_mem_nil⟩
  | u :: us, rs, rs', hd, hnd, hs, hup, hn, hc, h => by
    unfold cleanUps at h
    rcases hcl : cleanUp g rs u with e | rs1
    · rw [hcl] at h; cases h
    rw [hcl] at h
    simp only at h
    rw [List.mem_cons, not_or] at hn
    obtain ⟨hu, hnd'⟩ := List.nodup_cons.1 hnd
    obtain ⟨a1, a2, a3⟩ := cleanUp_one (hd u List.mem_cons_self) (hs u List.mem_cons_self) hc hcl
    have hs1 : ∀ v ∈ us, v ∈ rs1.surface := by
      intro v hv
      rw [a1]
      exact Finset.mem_erase.2 ⟨fun e => hu (e ▸ hv), hs v (List.mem_cons_of_mem _ hv)⟩
    have hsub : rs1.surface ⊆ rs.surface := by rw [a1]; exact Finset.erase_subset _ _
    rcases us with _ | ⟨v, vs⟩
    · cases h
      refine ⟨hsub, ?_⟩
      intro w hw
      rw [List.mem_singleton] at hw
      subst hw
      rw [a1]
      exact Finset.notMem_erase _ _
    · have hv : v ∈ g.up n := hup v (by simp)
      have hvs := hs1 v (by simp)
      have hc1 : n ∈ rs1.surface ∧ n ∉ rs1.boundary ∨ n ∉ rs1.surface ∧ n ∈ rs1.boundary := by
        rcases hc with ⟨h1, h2⟩ | ⟨h1, h2⟩
        · left
          refine ⟨?_, a2 h1⟩
          rw [a1]
          exact Finset.mem_erase.2 ⟨hn.1, h1⟩
        · right
          exact ⟨fun hx => h1 (hsub hx), a3 v hv hvs h2⟩
      obtain ⟨b1, b2⟩ := cleanUps_one (v :: vs) (fun w hw => hd w (List.mem_cons_of_mem _ hw)) hnd' hs1
        (fun w hw => hup w (List.mem_cons_of_mem _ hw)) hn.2 hc1 h
      refine ⟨b1.trans hsub, ?_⟩
      intro w hw
      rcases List.mem_cons.1 hw with rfl | hw
      · intro hx
        have := b1 hx
        rw [a1] at this
        exact Finset.notMem_erase _ _ this
      · exact b2 w hw

theorem down_single (hg : g.OK) (hone : ∀ m ∈ g.nodes, (g.down m).length ≤ 1) {n u : N}
    (hn : n ∈ g.nodes) (hu : u ∈ g.up n) : g.down u = [n] := by
  have hun := hg.up_mem n hn u hu
  have hd := (hg.dual u hun n hn).2 hu
  have hl := hone u hun
  rcases h : g.down u with _ | ⟨a, _ | ⟨b, l⟩⟩
  · rw [h] at hd; cases hd
  · rw [h] at hd
    rw [List.mem_singleton.1 hd]
  · rw [h] at hl
    simp at hl

theorem markSuccess_tight (hg : g.OK) (hone : ∀ m ∈ g.nodes, (g.down m).length ≤ 1) {rs : RS N}
    (hi : Inv g rs S F) (ht : Tight g rs S F) {n : N} (hn : n ∈ g.nodes)
    (hup : ∀ u ∈ g.up n, S u) (hs : ¬ S n) (hf : ¬ F n) {ready : List N} {rs' : RS N}
    (h : markSuccess g rs n = .ok (ready, rs')) : Tight g rs' (fun x => S x ∨ x = n) F := by
  have hnb := hi.up_s_not_below hup
  have hsurf : ∀ u ∈ g.up n, u ∈ rs.surface := fun u hu =>
    hi.keep u (hup u hu) n ((hg.dual u (hg.up_mem n hn u hu) n hn).2 hu) hs hf hnb
  -- the boundary after the scan of the downstream nodes does not contain `n`
  have hscan : ∀ (ms : List N) (r : RS N) (acc : List N), n ∉ ms → n ∉ r.boundary →
      (scanDown g ms r acc).2.surface = r.surface ∧ n ∉ (scanDown g ms r acc).2.boundary := by
    intro ms
    induction ms with
    | nil => intro r acc _ hb; exact ⟨rfl, hb⟩
    | cons m ms ih =>
      intro r acc hm hb
      rw [List.mem_cons, not_or] at hm
      simp only [scanDown]
      rcases hadd : addToBoundary g r m with ⟨_ | _, r'⟩
      · obtain ⟨_, rfl⟩ := addToBoundary_false hadd
        simp only
        split
        · exact ih _ _ hm.2 hb
        · exact ih _ _ hm.2 hb
      · obtain ⟨_, _, rfl⟩ := addToBoundary_true hadd
        simp only
        refine ih _ _ hm.2 ?_
        simp only [Finset.mem_insert, not_or]
        exact ⟨hm.1, hb⟩
  have hnd : n ∉ g.down n := fun h => hg.not_up_self hn ((hg.dual n hn n hn).1 h)
  have hnbd : n ∉ rs.boundary := by
    intro hb
    rcases (hi.bdry n hb).2 with h | h
    · exact hf h
    · exact hnb h
  unfold markSuccess at h
  simp only [not_not.2 hsurf, if_false] at h
  obtain ⟨q1, q2⟩ := hscan (g.down n) { rs with surface := insert n rs.surface } [] hnd hnbd
  generalize scanDown g (g.down n) { rs with surface := insert n rs.surface } [] = sc at h q1 q2
  obtain ⟨rdy, rs2⟩ := sc
  simp only at h q1 q2
  rcases hcl : cleanUps g (g.up n) rs2 with e | rs3
  · rw [hcl] at h; cases h
  rw [hcl] at h
  obtain ⟨b1, b2⟩ := cleanUps_one (n := n) (g.up n) (fun u hu => down_single hg hone hn hu) (hg.up_nodup n hn)
    (fun u hu => by rw [q1]; exact Finset.mem_insert_of_mem (hsurf u hu)) (fun u hu => hu)
    (hg.not_up_self hn) (Or.inl ⟨by rw [q1]; exact Finset.mem_insert_self _ _, q2⟩) hcl
  have hx : ∀ x ∈ rs3.surface, x ≠ n → ∃ d ∈ g.down x, ¬ (S d ∨ d = n) ∧ ¬ F d := by
    intro x hx hxn
    have hxs : x ∈ rs.surface := by
      have := b1 hx
      rw [q1] at this
      rcases Finset.mem_insert.1 this with h | h
      · exact absurd h hxn
      · exact h
    obtain ⟨d, hd1, hd2, hd3⟩ := ht x hxs
    refine ⟨d, hd1, ?_, hd3⟩
    rintro (hd | rfl)
    · exact hd2 hd
    · exact b2 x ((hg.dual x (hi.sNode x (hi.surf x hxs)) d hn).1 hd1) hx
  simp only at h
  by_cases he : (g.down n).isEmpty = true
  · rw [if_pos he] at h
    unfold setRemove at h
    split at h
    · cases h
    · rename_i s heq
      split at heq
      · cases heq
        cases h
        intro x hx'
        have := Finset.mem_erase.1 hx'
        exact hx x this.2 this.1
      · cases heq
  · rw [if_neg he] at h
    simp at h
    obtain ⟨_, rfl⟩ := h
    intro x hx'
    by_cases hxn : x = n
    · subst hxn
      rcases hd : g.down x with _ | ⟨d, l⟩
      · simp [hd] at he
      · have hdm : d ∈ g.down x := by rw [hd]; exact List.mem_cons_self
        have hxu := (hg.dual x hn d (hg.down_mem x hn d hdm)).1 hdm
        refine ⟨d, by simp, ?_, ?_⟩
        · rintro (hds | rfl)
          · exact hs (hi.sUp d hds x hxu)
          · exact hnd hdm
        · intro hdf
          exact hs (hi.fUp d hdf x hxu)
    · exact hx x hx' hxn

theorem orphanLoop_surface (pick : Nat → Finset N → N) (n : N) : ∀ (fuel k : Nat) (work : Finset N) (rs : RS N)
    (orph : Finset N) {o : Finset N} {rs' : RS N},
    orphanLoop g pick fuel k work rs orph = .ok (o, rs') →
    rs'.surface = rs.surface ∧ (n ∈ rs.boundary → n ∈ rs'.boundary)
  | 0, _, _, _, _, _, _, h => by cases h
  | fuel + 1, k, work, rs, orph, o, rs', h => by
    unfold orphanLoop at h
    split at h
    · cases h; exact ⟨rfl, id⟩
    · simp only at h
      split at h
      · cases h
      · rcases hadd : addToBoundary g rs (pick k work) with ⟨_ | _, r'⟩
        · obtain ⟨_, rfl⟩ := addToBoundary_false hadd
          rw [hadd] at h
          exact orphanLoop_surface pick n fuel _ _ _ _ h
        · obtain ⟨_, _, rfl⟩ := addToBoundary_true hadd
          rw [hadd] at h
          have := orphanLoop_surface pick n fuel _ _ _ _ h
          exact ⟨this.1, fun hb => this.2 (Finset.mem_insert_of_mem hb)⟩

theorem markFailure_tight (hg : g.OK) (hone : ∀ m ∈ g.nodes, (g.down m).length ≤ 1) {rs : RS N}
    (hi : Inv g rs S F) (ht : Tight g rs S F) {n : N} (hn : n ∈ g.nodes)
    (hup : ∀ u ∈ g.up n, S u) (hs : ¬ S n) (hf : ¬ F n) (pick : Nat → Finset N → N)
    {o : Finset N} {rs' : RS N}
    (h : markFailure g pick rs n = .ok (o, rs')) : Tight g rs' S (fun x => F x ∨ x = n) := by
  have hnb := hi.up_s_not_below hup
  have hsurf : ∀ u ∈ g.up n, u ∈ rs.surface := fun u hu =>
    hi.keep u (hup u hu) n ((hg.dual u (hg.up_mem n hn u hu) n hn).2 hu) hs hf hnb
  unfold markFailure at h
  simp only [not_not.2 hsurf, if_false] at h
  rcases hl : orphanLoop g pick (orphanFuel g) 0 (g.down n).toFinset
        { rs with boundary := insert n rs.boundary } ∅ with e | ⟨o2, rs2⟩
  · rw [hl] at h; cases h
  rw [hl] at h
  obtain ⟨q1, q2⟩ := orphanLoop_surface pick n _ _ _ _ _ hl
  simp only at h q1 q2
  rcases hcl : cleanUps g (g.up n) rs2 with e | rs3
  · rw [hcl] at h; cases h
  rw [hcl] at h
  have hns : n ∉ rs2.surface := by rw [q1]; exact fun hx => hs (hi.surf n hx)
  obtain ⟨b1, b2⟩ := cleanUps_one (n := n) (g.up n) (fun u hu => down_single hg hone hn hu) (hg.up_nodup n hn)
    (fun u hu => by rw [q1]; exact hsurf u hu) (fun u hu => hu)
    (hg.not_up_self hn) (Or.inr ⟨hns, q2 (Finset.mem_insert_self _ _)⟩) hcl
  have hx : ∀ x ∈ rs3.surface, ∃ d ∈ g.down x, ¬ S d ∧ ¬ (F d ∨ d = n) := by
    intro x hx
    have hxs : x ∈ rs.surface := by rw [← q1]; exact b1 hx
    obtain ⟨d, hd1, hd2, hd3⟩ := ht x hxs
    refine ⟨d, hd1, hd2, ?_⟩
    rintro (hd | rfl)
    · exact hd3 hd
    · exact b2 x ((hg.dual x (hi.sNode x (hi.surf x hxs)) d hn).1 hd1) hx
  simp only at h
  split at h
  · unfold setRemove at h
    split at h
    · cases h
    · cases h
      exact hx
  · simp at h
    obtain ⟨_, rfl⟩ := h
    exact hx

end RS
end Verif
