import Verif.Proofs.StarvedGraph
import Mathlib.Tactic.Linarith

/-! # The scheduler on the graph with an additional block -/

set_option linter.unusedSectionVars false

namespace Verif

open Spec

variable {N T K : Type} [DecidableEq N] [DecidableEq T] [DecidableEq K] {g : DGraph N T K}

/-- The same surface. -/
def RS.lift (rs : RS N) : RS (Option N) := ⟨rs.surface.image some, rs.boundary.image some⟩

/-- The same queue. -/
def PQueue.lift (q : PQueue N K) : PQueue (Option N) (Option K) :=
  ⟨q.readyQueue.map some, q.processing.image some, fun k => k.elim 0 q.retries, q.readyRoots, q.rootGen.map some⟩

/-- The same state, in which nobody has asked for the additional block. -/
def Sched.lift (st : Sched N T K) : Sched (Option N) (Option T) (Option K) where
  rs := st.rs.lift
  states := fun t => match t with
    | none => ⟨false, 1, 1, 0, 0, 0, 0, 0⟩
    | some t => st.states t
  queues := fun t => match t with
    | none => PQueue.init 1 [none]
    | some t => (st.queues t).lift

namespace RS

variable {rs : RS N} {n u : N}

theorem mem_surface_lift : some n ∈ rs.lift.surface ↔ n ∈ rs.surface := by simp [lift]

theorem mem_boundary_lift : some n ∈ rs.lift.boundary ↔ n ∈ rs.boundary := by simp [lift]

theorem addToBoundary_lift (h : ¬ Starved g n) : addToBoundary g.fed rs.lift (some n) =
    ((addToBoundary g rs n).1, (addToBoundary g rs n).2.lift) := by
  have hc : (some n ∉ rs.lift.boundary ∧ ∃ u ∈ g.fed.up (some n), u ∈ rs.lift.boundary) ↔
      (n ∉ rs.boundary ∧ ∃ u ∈ g.up n, u ∈ rs.boundary) := by
    rw [mem_boundary_lift, fed_up h]
    simp [mem_boundary_lift]
  unfold addToBoundary
  by_cases hh : n ∉ rs.boundary ∧ ∃ u ∈ g.up n, u ∈ rs.boundary
  · rw [if_pos hh, if_pos (hc.2 hh)]
    simp [lift, Finset.image_insert]
  · rw [if_neg hh, if_neg (fun x => hh (hc.1 x))]

theorem removeFromBoundary_lift (h : ¬ Starved g n) : removeFromBoundary g.fed rs.lift (some n) =
    (removeFromBoundary g rs n).lift := by
  have hc : (some n ∈ rs.lift.boundary ∧ ∀ u ∈ g.fed.up (some n), u ∉ rs.lift.surface) ↔
      (n ∈ rs.boundary ∧ ∀ u ∈ g.up n, u ∉ rs.surface) := by
    rw [mem_boundary_lift, fed_up h]
    simp [mem_surface_lift]
  unfold removeFromBoundary
  by_cases hh : n ∈ rs.boundary ∧ ∀ u ∈ g.up n, u ∉ rs.surface
  · rw [if_pos hh, if_pos (hc.2 hh)]
    simp [lift, Finset.image_erase (Option.some_injective N)]
  · rw [if_neg hh, if_neg (fun x => hh (hc.1 x))]

theorem contained_lift : rs.lift.contained (some n) = rs.contained n := by
  unfold contained
  simp only [mem_boundary_lift, mem_surface_lift]

theorem setRemove_lift (s : Finset N) : setRemove (s.image some) (some n) = (setRemove s n).map (Finset.image some) := by
  unfold setRemove
  by_cases h : n ∈ s
  · rw [if_pos h, if_pos (by simpa using h)]
    simp [Except.map, Finset.image_erase (Option.some_injective N)]
  · rw [if_neg h, if_neg (by simpa using h)]
    rfl

/-- What comes after a block is not starved. -/
theorem down_fed (hg : g.Loose) (hu : u ∈ g.nodes) {d : N} (hd : d ∈ g.down u) : ¬ Starved g d := by
  intro hs
  have := (hg.dual u hu d (hg.down_mem u hu d hd)).1 hd
  rw [hs.2.1] at this
  cases this

theorem cleanUp_lift (hg : g.Loose) (hu : u ∈ g.nodes) : cleanUp g.fed rs.lift (some u) =
    (cleanUp g rs u).map lift := by
  have key : ∀ (l : List (N × Int)) (r : RS N), (∀ d ∈ l, ¬ Starved g d.1) →
      (l.map (fun d => (some d.1, d.2))).foldl
        (fun r dc => if dc.2 < 0 then r.removeFromBoundary g.fed dc.1 else r) r.lift =
      (l.foldl (fun r dc => if dc.2 < 0 then r.removeFromBoundary g dc.1 else r) r).lift := by
    intro l
    induction l with
    | nil => intro r _; rfl
    | cons d l ih =>
      intro r hd
      rw [List.map_cons, List.foldl_cons, List.foldl_cons]
      have h1 : (if d.2 < 0 then r.lift.removeFromBoundary g.fed (some d.1) else r.lift) =
          (if d.2 < 0 then r.removeFromBoundary g d.1 else r).lift := by
        split
        · exact removeFromBoundary_lift (hd d List.mem_cons_self)
        · rfl
      simp only
      rw [h1]
      exact ih _ (fun x hx => hd x (List.mem_cons_of_mem _ hx))
  have hcs : (g.fed.down (some u)).map rs.lift.contained = (g.down u).map rs.contained := by
    rw [fed_down, List.map_map]
    exact List.map_congr_left (fun d _ => contained_lift)
  have hz : ∀ (l : List N) (cs : List Int), (l.map some).zip cs = (l.zip cs).map (fun d => (some d.1, d.2)) := by
    intro l cs
    rw [List.zip_map_left]
    rfl
  unfold cleanUp
  simp only
  rw [hcs]
  by_cases hall : ((g.down u).map rs.contained).all (fun c => 0 < c.natAbs) = true
  · rw [if_pos hall, if_pos hall]
    have hs := setRemove_lift (n := u) rs.surface
    change setRemove rs.lift.surface (some u) = _ at hs
    rw [hs]
    rcases hr : setRemove rs.surface u with e | s
    · rfl
    · simp only [Except.map]
      rw [fed_down, hz]
      exact congrArg Except.ok (key ((g.down u).zip ((g.down u).map rs.contained)) { rs with surface := s }
        (fun d hd => down_fed hg hu (List.of_mem_zip hd).1))
  · rw [if_neg hall, if_neg hall]
    rfl

theorem cleanUps_lift (hg : g.Loose) : ∀ (us : List N) (rs : RS N), (∀ u ∈ us, u ∈ g.nodes) →
    cleanUps g.fed (us.map some) rs.lift = (cleanUps g us rs).map lift
  | [], rs, _ => rfl
  | u :: us, rs, h => by
    rw [List.map_cons]
    unfold cleanUps
    rw [cleanUp_lift hg (h u List.mem_cons_self)]
    rcases cleanUp g rs u with e | rs'
    · rfl
    · exact cleanUps_lift hg us rs' (fun x hx => h x (List.mem_cons_of_mem _ hx))

theorem ups_lift (h : ¬ Starved g n) : (∀ u ∈ g.fed.up (some n), u ∈ rs.lift.surface) ↔ ∀ u ∈ g.up n, u ∈ rs.surface := by
  rw [fed_up h]
  simp [mem_surface_lift]

theorem scanDown_lift : ∀ (ms : List N) (rs : RS N) (ready : List N), (∀ m ∈ ms, ¬ Starved g m) →
    scanDown g.fed (ms.map some) rs.lift (ready.map some) =
      ((scanDown g ms rs ready).1.map some, (scanDown g ms rs ready).2.lift)
  | [], rs, ready, _ => rfl
  | m :: ms, rs, ready, h => by
    have hm := h m List.mem_cons_self
    have ih := fun rs ready => scanDown_lift ms rs ready (fun x hx => h x (List.mem_cons_of_mem _ hx))
    rw [List.map_cons]
    unfold scanDown
    rw [addToBoundary_lift hm]
    rcases addToBoundary g rs m with ⟨_ | _, rs'⟩
    · simp only
      by_cases hu : ∀ u ∈ g.up m, u ∈ rs'.surface
      · rw [if_pos hu, if_pos ((ups_lift hm).2 hu)]
        have := ih rs' (ready ++ [m])
        rw [List.map_append] at this
        exact this
      · rw [if_neg hu, if_neg (fun x => hu ((ups_lift hm).1 x))]
        exact ih rs' ready
    · exact ih rs' ready

theorem markSuccess_lift (hg : g.Loose) (hn : n ∈ g.nodes) (h : ¬ Starved g n) : markSuccess g.fed rs.lift (some n) =
    (markSuccess g rs n).map (fun r => (r.1.map some, r.2.lift)) := by
  unfold markSuccess
  simp only
  by_cases hu : ∀ u ∈ g.up n, u ∈ rs.surface
  · rw [if_neg (not_not.2 hu), if_neg (not_not.2 ((ups_lift h).2 hu))]
    have h1 : ({ rs.lift with surface := insert (some n) rs.lift.surface } : RS (Option N)) =
        ({ rs with surface := insert n rs.surface } : RS N).lift := by
      simp [lift, Finset.image_insert]
    rw [h1, fed_down]
    have h2 := scanDown_lift (g := g) (g.down n) ({ rs with surface := insert n rs.surface } : RS N) []
      (fun m hm => down_fed hg hn hm)
    rw [List.map_nil] at h2
    rw [h2]
    rcases hs : scanDown g (g.down n) ({ rs with surface := insert n rs.surface } : RS N) [] with ⟨ready, rs2⟩
    simp only
    rw [fed_up h, cleanUps_lift hg (g.up n) rs2 (hg.up_mem n hn)]
    rcases hc : cleanUps g (g.up n) rs2 with e | rs3
    · rfl
    · simp only [Except.map]
      have h3 : ((g.down n).map some).isEmpty = (g.down n).isEmpty := by cases g.down n <;> rfl
      rw [h3]
      by_cases hd : (g.down n).isEmpty = true
      · rw [if_pos hd, if_pos hd]
        have h4 := setRemove_lift (n := n) rs3.surface
        change setRemove rs3.lift.surface (some n) = _ at h4
        rw [h4]
        rcases setRemove rs3.surface n with e | s <;> rfl
      · rw [if_neg hd, if_neg hd]
  · rw [if_pos hu, if_pos (fun x => hu ((ups_lift h).1 x))]
    rfl

/-- The same choices. -/
def liftPick (pick : Nat → Finset N → N) (k : Nat) (s : Finset (Option N)) : Option N :=
  if none ∈ s then none else some (pick k (Finset.eraseNone s))

theorem liftPick_some (pick : Nat → Finset N → N) (k : Nat) (s : Finset N) :
    liftPick pick k (s.image some) = some (pick k s) := by
  unfold liftPick
  rw [if_neg (by simp), Finset.eraseNone_image_some]

theorem liftPick_legal {pick : Nat → Finset N → N} (h : LegalPick pick) : LegalPick (liftPick pick) := by
  intro k s hs
  unfold liftPick
  split
  · assumption
  · next hn =>
    have : (Finset.eraseNone s).Nonempty := by
      obtain ⟨x, hx⟩ := hs
      rcases x with _ | x
      · exact absurd hx hn
      · exact ⟨x, by simpa using hx⟩
    simpa using h k _ this

theorem image_some_sdiff (a b : Finset N) : a.image some \ b.image some = (a \ b).image some :=
  (Finset.image_sdiff _ _ (Option.some_injective N)).symm

theorem orphanLoop_lift (hg : g.Loose) (pick : Nat → Finset N → N) : ∀ (fuel k : Nat) (work : Finset N) (rs : RS N)
    (o : Finset N), (∀ m ∈ work, m ∈ g.nodes ∧ ¬ Starved g m) →
    orphanLoop g.fed (liftPick pick) fuel k (work.image some) rs.lift (o.image some) =
      (orphanLoop g pick fuel k work rs o).map (fun r => (r.1.image some, r.2.lift))
  | 0, _, _, _, _, _ => rfl
  | fuel + 1, k, work, rs, o, h => by
    unfold orphanLoop
    by_cases hw : work = ∅
    · rw [if_pos hw, if_pos (by rw [hw]; rfl)]
      rfl
    · rw [if_neg hw, if_neg (by simpa using hw)]
      simp only
      rw [liftPick_some]
      by_cases hm : pick k work ∈ work
      · rw [if_neg (not_not.2 hm), if_neg (not_not.2 (by simpa using hm))]
        obtain ⟨hm1, hm2⟩ := h _ hm
        rw [addToBoundary_lift hm2]
        have h1 : (work.image some).erase (some (pick k work)) = (work.erase (pick k work)).image some :=
          (Finset.image_erase (Option.some_injective N) _ _).symm
        have h2 : (g.fed.down (some (pick k work))).toFinset = (g.down (pick k work)).toFinset.image some := by
          rw [fed_down]
          ext x
          simp
        rcases addToBoundary g rs (pick k work) with ⟨_ | _, rs'⟩
        · simp only
          rw [h1]
          exact orphanLoop_lift hg pick fuel (k + 1) _ rs' o (fun m hx => h m (Finset.mem_of_mem_erase hx))
        · simp only
          rw [h1, h2, image_some_sdiff, ← Finset.image_union, ← Finset.image_insert]
          refine orphanLoop_lift hg pick fuel (k + 1) _ rs' _ ?_
          intro m hx
          rcases Finset.mem_union.1 hx with hx | hx
          · exact h m (Finset.mem_of_mem_erase hx)
          · have := List.mem_toFinset.1 (Finset.mem_sdiff.1 hx).1
            exact ⟨hg.down_mem _ hm1 _ this, down_fed hg hm1 this⟩
      · rw [if_pos hm, if_pos (by simpa using hm)]
        rfl

/-- More fuel does not change a result. -/
theorem orphanLoop_more {N T K : Type} [DecidableEq N] {g : DGraph N T K} (pick : Nat → Finset N → N) (more : Nat) :
    ∀ (fuel k : Nat) (work : Finset N) (rs : RS N) (o : Finset N) (r : Finset N × RS N),
    orphanLoop g pick fuel k work rs o = .ok r → orphanLoop g pick (fuel + more) k work rs o = .ok r
  | 0, _, _, _, _, _, h => by cases h
  | fuel + 1, k, work, rs, o, r, h => by
    rw [Nat.succ_add]
    unfold orphanLoop at h ⊢
    by_cases hw : work = ∅
    · rw [if_pos hw] at h ⊢; exact h
    · rw [if_neg hw] at h ⊢
      simp only at h ⊢
      by_cases hm : pick k work ∉ work
      · rw [if_pos hm] at h; cases h
      · rw [if_neg hm] at h ⊢
        rcases hb : addToBoundary g rs (pick k work) with ⟨_ | _, rs'⟩
        · rw [hb] at h
          exact orphanLoop_more pick more fuel _ _ _ _ r h
        · rw [hb] at h
          exact orphanLoop_more pick more fuel _ _ _ _ r h

theorem addBoundary_true {rs' : RS N} (h : addToBoundary g rs n = (true, rs')) :
    n ∉ rs.boundary ∧ rs'.boundary = insert n rs.boundary := by
  unfold addToBoundary at h
  split at h
  · next hc => cases h; exact ⟨hc.1, rfl⟩
  · cases h

theorem addBoundary_false {rs' : RS N} (h : addToBoundary g rs n = (false, rs')) : rs' = rs := by
  unfold addToBoundary at h
  split at h
  · cases h
  · cases h; rfl

/-- The loop ends: every block is reported at most once. -/
theorem orphanLoop_ends (hd : ∀ n ∈ g.nodes, ∀ m ∈ g.down n, m ∈ g.nodes) {pick : Nat → Finset N → N}
    (hp : LegalPick pick) : ∀ (fuel k : Nat) (work : Finset N) (rs : RS N) (o : Finset N), (∀ m ∈ work, m ∈ g.nodes) →
    work.card + (g.nodes.toFinset \ rs.boundary).card * (g.nodes.toFinset.card + 1) < fuel →
    ∃ r, orphanLoop g pick fuel k work rs o = .ok r
  | 0, _, _, _, _, _, h => by omega
  | fuel + 1, k, work, rs, o, hw, h => by
    unfold orphanLoop
    by_cases he : work = ∅
    · rw [if_pos he]; exact ⟨_, rfl⟩
    · rw [if_neg he]
      simp only
      have hm := hp k work (Finset.nonempty_iff_ne_empty.2 he)
      rw [if_neg (not_not.2 hm)]
      have hc : (work.erase (pick k work)).card + 1 = work.card := Finset.card_erase_add_one hm
      rcases hb : addToBoundary g rs (pick k work) with ⟨_ | _, rs'⟩
      · simp only
        have := addBoundary_false hb
        subst this
        exact orphanLoop_ends hd hp fuel _ _ _ _ (fun m hx => hw m (Finset.mem_of_mem_erase hx)) (by omega)
      · simp only
        obtain ⟨h1, h2⟩ := addBoundary_true hb
        refine orphanLoop_ends hd hp fuel _ _ _ _ ?_ ?_
        · intro m hx
          rcases Finset.mem_union.1 hx with hx | hx
          · exact hw m (Finset.mem_of_mem_erase hx)
          · exact hd _ (hw _ hm) _ (List.mem_toFinset.1 (Finset.mem_sdiff.1 hx).1)
        · have h3 : (g.nodes.toFinset \ rs'.boundary).card + 1 = (g.nodes.toFinset \ rs.boundary).card := by
            rw [h2, Finset.sdiff_insert]
            exact Finset.card_erase_add_one (Finset.mem_sdiff.2 ⟨List.mem_toFinset.2 (hw _ hm), h1⟩)
          have h4 : ∀ s : Finset N, (work.erase (pick k work) ∪ ((g.down (pick k work)).toFinset \ s)).card ≤
              (work.erase (pick k work)).card + g.nodes.toFinset.card := by
            intro s
            refine le_trans (Finset.card_union_le _ _) (Nat.add_le_add_left (Finset.card_le_card ?_) _)
            intro x hx
            exact List.mem_toFinset.2 (hd _ (hw _ hm) _ (List.mem_toFinset.1 (Finset.mem_sdiff.1 hx).1))
          have h5 := h4 o
          rw [← h3, Nat.add_mul] at h
          omega

theorem orphanLoop_failure (hg : g.Loose) (hn : n ∈ g.nodes) {pick : Nat → Finset N → N} (hp : LegalPick pick) :
    ∃ r, orphanLoop g pick (orphanFuel g) 0 (g.down n).toFinset { rs with boundary := insert n rs.boundary } ∅ = .ok r := by
  refine orphanLoop_ends hg.down_mem hp _ _ _ _ _ (fun m hm => hg.down_mem n hn m (List.mem_toFinset.1 hm)) ?_
  have h1 : (g.down n).toFinset.card ≤ g.nodes.toFinset.card :=
    Finset.card_le_card (fun x hx => List.mem_toFinset.2 (hg.down_mem n hn x (List.mem_toFinset.1 hx)))
  have h2 : g.nodes.toFinset.card ≤ g.nodes.length := List.toFinset_card_le _
  have h3 : ∀ s : Finset N, (g.nodes.toFinset \ s).card ≤ g.nodes.length := fun s =>
    le_trans (Finset.card_le_card Finset.sdiff_subset) h2
  unfold orphanFuel
  have h4 := Nat.mul_le_mul (h3 (insert n rs.boundary)) (Nat.add_le_add_right h2 1)
  simp only at h4 ⊢
  nlinarith

theorem markFailure_lift (hg : g.Loose) (hn : n ∈ g.nodes) (h : ¬ Starved g n) {pick : Nat → Finset N → N}
    (hp : LegalPick pick) : markFailure g.fed (liftPick pick) rs.lift (some n) =
      (markFailure g pick rs n).map (fun r => (r.1.image some, r.2.lift)) := by
  unfold markFailure
  simp only
  by_cases hu : ∀ u ∈ g.up n, u ∈ rs.surface
  · rw [if_neg (not_not.2 hu), if_neg (not_not.2 ((ups_lift h).2 hu))]
    obtain ⟨⟨o2, rs2⟩, ho⟩ := orphanLoop_failure (rs := rs) hg hn hp
    rw [ho]
    simp only
    have h1 := orphanLoop_lift hg pick (orphanFuel g) 0 (g.down n).toFinset
      ({ rs with boundary := insert n rs.boundary } : RS N) ∅
      (fun m hm => ⟨hg.down_mem n hn m (List.mem_toFinset.1 hm), down_fed hg hn (List.mem_toFinset.1 hm)⟩)
    rw [ho] at h1
    have h2 : ({ rs.lift with boundary := insert (some n) rs.lift.boundary } : RS (Option N)) =
        ({ rs with boundary := insert n rs.boundary } : RS N).lift := by
      simp [lift, Finset.image_insert]
    have h3 : (g.fed.down (some n)).toFinset = (g.down n).toFinset.image some := by
      rw [fed_down]
      ext x
      simp
    obtain ⟨x, hx⟩ : ∃ x, orphanFuel g.fed = orphanFuel g + x := by
      refine ⟨orphanFuel g.fed - orphanFuel g, ?_⟩
      have : orphanFuel g ≤ orphanFuel g.fed := by
        unfold orphanFuel
        have : g.fed.nodes.length = g.nodes.length + 1 := by simp [DGraph.fed]
        rw [this]
        exact Nat.mul_le_mul (by omega) (by omega)
      omega
    have h4 := orphanLoop_more (liftPick pick) x _ _ _ _ _ _ h1
    rw [Finset.image_empty] at h4
    rw [h2, h3, hx, h4]
    simp only
    rw [fed_up h, cleanUps_lift hg (g.up n) rs2 (hg.up_mem n hn)]
    rcases hc : cleanUps g (g.up n) rs2 with e | rs3
    · rfl
    · simp only [Except.map]
      have h5 : ((g.up n).map some).isEmpty = (g.up n).isEmpty := by cases g.up n <;> rfl
      rw [h5]
      by_cases hd : (g.up n).isEmpty = true
      · rw [if_pos hd, if_pos hd]
        have h6 := setRemove_lift (n := n) rs3.boundary
        change setRemove rs3.lift.boundary (some n) = _ at h6
        rw [h6]
        rcases hb : setRemove rs3.boundary n with e | b <;> rfl
      · rw [if_neg hd, if_neg hd]
  · rw [if_pos hu, if_pos (fun x => hu ((ups_lift h).1 x))]
    rfl

end RS
end Verif
