import Verif.Spec.Queries
import Verif.Proofs.Run

/-! # Counting the questions to the dependency graph -/

namespace Verif

open Spec

variable {N T K : Type} [DecidableEq N] {g : DGraph N T K}

namespace Counted

/-! ### Without the counter nothing is new -/

theorem addToBoundary_val (rs : RS N) (n : N) : (addToBoundary g rs n).val = RS.addToBoundary g rs n := by
  unfold addToBoundary RS.addToBoundary
  rw [Asked.val_bind]
  change (if n ∉ rs.boundary ∧ ∃ u ∈ g.up n, u ∈ rs.boundary then _ else _ : Asked (Bool × RS N)).val = _
  split <;> rfl

theorem addToBoundary_asks (rs : RS N) (n : N) : (addToBoundary g rs n).asks = 1 := by
  unfold addToBoundary
  rw [Asked.asks_bind]
  change 1 + (if n ∉ rs.boundary ∧ ∃ u ∈ g.up n, u ∈ rs.boundary then _ else _ : Asked (Bool × RS N)).asks = _
  split <;> rfl

theorem removeFromBoundary_val (rs : RS N) (n : N) :
    (removeFromBoundary g rs n).val = rs.removeFromBoundary g n := by
  unfold removeFromBoundary RS.removeFromBoundary
  rw [Asked.val_bind]
  change (if n ∈ rs.boundary ∧ ∀ u ∈ g.up n, u ∉ rs.surface then _ else _ : Asked (RS N)).val = _
  split <;> rfl

theorem removeFromBoundary_asks (rs : RS N) (n : N) : (removeFromBoundary g rs n).asks = 1 := by
  unfold removeFromBoundary
  rw [Asked.asks_bind]
  change 1 + (if n ∈ rs.boundary ∧ ∀ u ∈ g.up n, u ∉ rs.surface then _ else _ : Asked (RS N)).asks = _
  split <;> rfl

theorem removeAll_val : ∀ (l : List (N × Int)) (rs : RS N), (removeAll g l rs).val =
    l.foldl (fun r dc => if dc.2 < 0 then r.removeFromBoundary g dc.1 else r) rs
  | [], _ => rfl
  | (d, c) :: l, rs => by
    unfold removeAll
    rw [List.foldl_cons]
    by_cases h : c < 0
    · simp only [h, if_true, Asked.val_bind, removeFromBoundary_val]
      exact removeAll_val l _
    · simp only [h, if_false]
      exact removeAll_val l _

theorem removeAll_asks : ∀ (l : List (N × Int)) (rs : RS N), (removeAll g l rs).asks ≤ l.length
  | [], _ => Nat.le_refl _
  | (d, c) :: l, rs => by
    unfold removeAll
    rw [List.length_cons]
    by_cases h : c < 0
    · simp only [h, if_true, Asked.asks_bind, removeFromBoundary_asks]
      have := removeAll_asks l (removeFromBoundary g rs d).val
      omega
    · simp only [h, if_false]
      have := removeAll_asks l rs
      omega

theorem cleanUp_val (rs : RS N) (u : N) : (cleanUp g rs u).val = RS.cleanUp g rs u := by
  unfold cleanUp RS.cleanUp
  rw [Asked.val_bind]
  dsimp only [askDown]
  split
  · cases RS.setRemove rs.surface u with
    | error e => rfl
    | ok s => simp only [Asked.val_bind, Asked.val_pure, removeAll_val]
  · rfl

theorem cleanUp_asks (rs : RS N) (u : N) : (cleanUp g rs u).asks ≤ 1 + (g.down u).length := by
  unfold cleanUp
  rw [Asked.asks_bind]
  dsimp only [askDown]
  split
  · cases RS.setRemove rs.surface u with
    | error e => simp
    | ok s =>
      simp only [Asked.asks_bind, Asked.asks_pure, Nat.add_zero]
      have := removeAll_asks (g := g) ((g.down u).zip ((g.down u).map rs.contained)) { rs with surface := s }
      simp only [List.length_zip, List.length_map, Nat.min_self] at this
      omega
  · simp

theorem cleanUps_val : ∀ (us : List N) (rs : RS N), (cleanUps g us rs).val = RS.cleanUps g us rs
  | [], _ => rfl
  | u :: us, rs => by
    unfold cleanUps RS.cleanUps
    rw [Asked.val_bind, cleanUp_val]
    cases RS.cleanUp g rs u with
    | error e => rfl
    | ok rs' => exact cleanUps_val us rs'

theorem cleanUps_asks {D : Nat} : ∀ (us : List N) (rs : RS N), (∀ u ∈ us, (g.down u).length ≤ D) →
    (cleanUps g us rs).asks ≤ us.length * (1 + D)
  | [], _, _ => by simp [cleanUps]
  | u :: us, rs, h => by
    unfold cleanUps
    rw [Asked.asks_bind, cleanUp_val, List.length_cons, Nat.add_mul, Nat.one_mul]
    have h1 := cleanUp_asks (g := g) rs u
    have h2 := h u List.mem_cons_self
    cases RS.cleanUp g rs u with
    | error e => simp only [Asked.asks_pure]; omega
    | ok rs' =>
      have := cleanUps_asks us rs' (fun v hv => h v (List.mem_cons_of_mem _ hv))
      simp only
      omega

theorem scanDown_val : ∀ (ms : List N) (rs : RS N) (ready : List N),
    (scanDown g ms rs ready).val = RS.scanDown g ms rs ready
  | [], _, _ => rfl
  | m :: ms, rs, ready => by
    unfold scanDown RS.scanDown
    rw [Asked.val_bind, addToBoundary_val]
    rcases RS.addToBoundary g rs m with ⟨_ | _, rs'⟩
    · simp only [Asked.val_bind, askUp]
      by_cases h : ∀ u ∈ g.up m, u ∈ rs'.surface
      · rw [if_pos h, if_pos h]; exact scanDown_val ms rs' _
      · rw [if_neg h, if_neg h]; exact scanDown_val ms rs' _
    · exact scanDown_val ms rs' ready

theorem scanDown_asks : ∀ (ms : List N) (rs : RS N) (ready : List N),
    (scanDown g ms rs ready).asks ≤ 2 * ms.length
  | [], _, _ => Nat.le_refl _
  | m :: ms, rs, ready => by
    unfold scanDown
    rw [Asked.asks_bind, addToBoundary_asks, addToBoundary_val, List.length_cons]
    rcases RS.addToBoundary g rs m with ⟨_ | _, rs'⟩
    · simp only [Asked.asks_bind, askUp]
      by_cases h : ∀ u ∈ g.up m, u ∈ rs'.surface
      · rw [if_pos h]
        have := scanDown_asks ms rs' (ready ++ [m])
        omega
      · rw [if_neg h]
        have := scanDown_asks ms rs' ready
        omega
    · have := scanDown_asks ms rs' ready
      simp only
      omega

theorem markSuccess_val (rs : RS N) (n : N) : (markSuccess g rs n).val = RS.markSuccess g rs n := by
  unfold markSuccess RS.markSuccess
  simp only [Asked.val_bind, askUp, askDown]
  by_cases h : ∀ u ∈ g.up n, u ∈ rs.surface
  · rw [if_neg (not_not.2 h), if_neg (not_not.2 h)]
    simp only [Asked.val_bind, scanDown_val]
    generalize RS.scanDown g (g.down n) _ [] = z
    obtain ⟨ready, rs2⟩ := z
    simp only [cleanUps_val]
    cases RS.cleanUps g (g.up n) rs2 with
    | error e => rfl
    | ok rs3 =>
      simp only [Asked.val_bind]
      split
      · cases RS.setRemove rs3.surface n <;> rfl
      · rfl
  · rw [if_pos h, if_pos h]
    rfl

theorem markSuccess_asks {U D : Nat} (rs : RS N) (n : N) (hU : (g.up n).length ≤ U) (hD : (g.down n).length ≤ D)
    (hD' : ∀ u ∈ g.up n, (g.down u).length ≤ D) : (markSuccess g rs n).asks ≤ 3 + 2 * D + U * (1 + D) := by
  unfold markSuccess
  simp only [Asked.asks_bind, askUp, askDown]
  by_cases h : ∀ u ∈ g.up n, u ∈ rs.surface
  · rw [if_neg (not_not.2 h)]
    simp only [Asked.asks_bind]
    have h1 := scanDown_asks (g := g) (g.down n) { rs with surface := insert n rs.surface } []
    generalize scanDown g (g.down n) _ [] = z at h1
    obtain ⟨⟨ready, rs2⟩, k⟩ := z
    simp only [cleanUps_val] at h1 ⊢
    have h2 := cleanUps_asks (g := g) (g.up n) rs2 hD'
    have h3 : (g.up n).length * (1 + D) ≤ U * (1 + D) := Nat.mul_le_mul_right _ hU
    cases RS.cleanUps g (g.up n) rs2 with
    | error e => simp only [Asked.asks_pure]; omega
    | ok rs3 =>
      simp only [Asked.asks_bind]
      split
      · cases RS.setRemove rs3.surface n <;> simp only [Asked.asks_pure] <;> omega
      · simp only [Asked.asks_pure]; omega
  · rw [if_pos h]
    simp only [Asked.asks_pure]
    omega

theorem orphanLoop_val (pick : Nat → Finset N → N) : ∀ (fuel k : Nat) (work : Finset N) (rs : RS N) (o : Finset N),
    (orphanLoop g pick fuel k work rs o).val = RS.orphanLoop g pick fuel k work rs o
  | 0, _, _, _, _ => rfl
  | fuel + 1, k, work, rs, o => by
    unfold orphanLoop RS.orphanLoop
    by_cases h0 : work = ∅
    · rw [if_pos h0, if_pos h0]; rfl
    · rw [if_neg h0, if_neg h0]
      dsimp only
      by_cases h1 : pick k work ∈ work
      · rw [if_neg (not_not.2 h1), if_neg (not_not.2 h1), Asked.val_bind, addToBoundary_val]
        rcases RS.addToBoundary g rs (pick k work) with ⟨_ | _, rs'⟩
        · exact orphanLoop_val pick fuel _ _ _ _
        · simp only [Asked.val_bind, askDown]
          exact orphanLoop_val pick fuel _ _ _ _
      · rw [if_pos h1, if_pos h1]; rfl

/-- Every orphan costs as many questions as it has downstream nodes, and one more. -/
theorem orphanLoop_asks {D : Nat} (hd : ∀ n ∈ g.nodes, ∀ m ∈ g.down n, m ∈ g.nodes)
    (hD : ∀ n ∈ g.nodes, (g.down n).length ≤ D) (pick : Nat → Finset N → N) :
    ∀ (fuel k : Nat) (work : Finset N) (rs : RS N) (o o' : Finset N) (rs' : RS N), (∀ x ∈ work, x ∈ g.nodes) →
      o ⊆ rs.boundary → RS.orphanLoop g pick fuel k work rs o = .ok (o', rs') →
      (orphanLoop g pick fuel k work rs o).asks + (1 + D) * o.card ≤ work.card + (1 + D) * o'.card
  | 0, _, _, _, _, _, _, _, _, h => by cases h
  | fuel + 1, k, work, rs, o, o', rs', hw, ho, h => by
    unfold RS.orphanLoop at h
    unfold orphanLoop
    by_cases h0 : work = ∅
    · rw [if_pos h0] at h ⊢
      cases h
      simp
    · rw [if_neg h0] at h ⊢
      dsimp only at h ⊢
      by_cases h1 : pick k work ∈ work
      · rw [if_neg (not_not.2 h1)] at h ⊢
        rw [Asked.asks_bind, addToBoundary_val, addToBoundary_asks]
        generalize pick k work = m at h h1
        have hm := hw m h1
        have hc : (work.erase m).card + 1 = work.card := Finset.card_erase_add_one h1
        rcases hadd : RS.addToBoundary g rs m with ⟨_ | _, rs1⟩
        · rw [hadd] at h
          obtain ⟨_, rfl⟩ := RS.addToBoundary_false hadd
          have := orphanLoop_asks hd hD pick fuel (k + 1) (work.erase m) rs1 o o' rs'
            (fun x hx => hw x (Finset.mem_of_mem_erase hx)) ho h
          simp only
          omega
        · rw [hadd] at h
          obtain ⟨hmb, _, hrs⟩ := RS.addToBoundary_true hadd
          have hmo : m ∉ o := fun hmo => hmb (ho hmo)
          have hdn := hD m hm
          have hcard : (work.erase m ∪ ((g.down m).toFinset \ o)).card ≤ (work.erase m).card + D :=
            (Finset.card_union_le _ _).trans (Nat.add_le_add_left
              ((Finset.card_le_card Finset.sdiff_subset).trans ((List.toFinset_card_le _).trans hdn)) _)
          have := orphanLoop_asks hd hD pick fuel (k + 1) _ rs1 (insert m o) o' rs' (by
              intro x hx
              rcases Finset.mem_union.1 hx with hx | hx
              · exact hw x (Finset.mem_of_mem_erase hx)
              · exact hd m hm x (List.mem_toFinset.1 (Finset.mem_sdiff.1 hx).1)) (by
              rw [hrs]; exact Finset.insert_subset_insert _ ho) h
          rw [Finset.card_insert_of_notMem hmo, Nat.mul_add] at this
          simp only [Asked.asks_bind, askDown]
          omega
      · rw [if_pos h1] at h
        cases h

theorem markFailure_val (pick : Nat → Finset N → N) (rs : RS N) (n : N) :
    (markFailure g pick rs n).val = RS.markFailure g pick rs n := by
  unfold markFailure RS.markFailure
  simp only [Asked.val_bind, askUp, askDown]
  by_cases h : ∀ u ∈ g.up n, u ∈ rs.surface
  · rw [if_neg (not_not.2 h), if_neg (not_not.2 h)]
    simp only [Asked.val_bind, orphanLoop_val]
    rcases RS.orphanLoop g pick _ _ _ _ _ with e | ⟨o, rs2⟩
    · rfl
    · simp only [Asked.val_bind, cleanUps_val]
      cases RS.cleanUps g (g.up n) rs2 with
      | error e => rfl
      | ok rs3 =>
        simp only [Asked.val_bind]
        split
        · cases RS.setRemove rs3.boundary n <;> rfl
        · rfl
  · rw [if_pos h, if_pos h]
    rfl

theorem markFailure_asks {U D : Nat} (hd : ∀ n ∈ g.nodes, ∀ m ∈ g.down n, m ∈ g.nodes)
    (hD : ∀ n ∈ g.nodes, (g.down n).length ≤ D) (pick : Nat → Finset N → N) {rs rs' : RS N} {n : N} {o : Finset N}
    (hn : n ∈ g.nodes) (hup : ∀ u ∈ g.up n, u ∈ g.nodes) (hU : (g.up n).length ≤ U)
    (h : RS.markFailure g pick rs n = .ok (o, rs')) :
    (markFailure g pick rs n).asks ≤ 3 + D + U * (1 + D) + (1 + D) * o.card := by
  unfold RS.markFailure at h
  unfold markFailure
  simp only [Asked.asks_bind, askUp, askDown] at h ⊢
  by_cases hs : ∀ u ∈ g.up n, u ∈ rs.surface
  · rw [if_neg (not_not.2 hs)] at h ⊢
    simp only [Asked.asks_bind, orphanLoop_val]
    rcases hl : RS.orphanLoop g pick (RS.orphanFuel g) 0 (g.down n).toFinset
      { rs with boundary := insert n rs.boundary } ∅ with e | ⟨o1, rs2⟩
    · rw [hl] at h; cases h
    · rw [hl] at h
      have h1 := orphanLoop_asks hd hD pick (RS.orphanFuel g) 0 (g.down n).toFinset
        { rs with boundary := insert n rs.boundary } ∅ o1 rs2
        (fun x hx => hd n hn x (List.mem_toFinset.1 hx)) (Finset.empty_subset _) hl
      have h2 : (g.down n).toFinset.card ≤ D := (List.toFinset_card_le _).trans (hD n hn)
      have h3 := cleanUps_asks (g := g) (g.up n) rs2 (fun u hu => hD u (hup u hu))
      have h4 : (g.up n).length * (1 + D) ≤ U * (1 + D) := Nat.mul_le_mul_right _ hU
      simp only [Asked.asks_bind, cleanUps_val, Finset.card_empty, Nat.mul_zero, Nat.add_zero] at h h1 ⊢
      cases hc : RS.cleanUps g (g.up n) rs2 with
      | error e => rw [hc] at h; cases h
      | ok rs3 =>
        rw [hc] at h
        simp only [Asked.asks_bind] at h ⊢
        split at h
        · rename_i he
          rw [if_pos he]
          cases hr : RS.setRemove rs3.boundary n with
          | error e => rw [hr] at h; cases h
          | ok b =>
            rw [hr] at h
            cases h
            simp only [Asked.asks_pure]
            omega
        · rename_i he
          rw [if_neg he]
          cases h
          simp only [Asked.asks_pure]
          omega
  · rw [if_pos hs] at h
    cases h

variable [DecidableEq T] [DecidableEq K]

theorem releaseBlock_val (pick : Nat → Finset N → N) (st : Sched N T K) (n : N) (status : BlockStatus) :
    (releaseBlock g pick st n status).val = st.releaseBlock g pick n status := by
  unfold releaseBlock Sched.releaseBlock
  cases st.removeFromProcessing g n with
  | error e => rfl
  | ok st1 =>
    cases status with
    | success =>
      simp only [Asked.val_bind, markSuccess_val]
      rcases RS.markSuccess g st1.rs n with e | ⟨nb, rs'⟩ <;> rfl
    | failed =>
      simp only
      split
      · simp only [Asked.val_bind, markFailure_val]
        rcases RS.markFailure g pick st1.rs n with e | ⟨o, rs'⟩ <;> rfl
      · rfl
    | _ => rfl

theorem acquireLoop_val (t : T) (chk : Nat → N → Check) : ∀ (fuel k : Nat) (st : Sched N T K) (skips : List N),
    (acquireLoop g t fuel chk k st skips).val = Sched.acquireLoop g t fuel chk k st skips
  | 0, _, _, _ => rfl
  | fuel + 1, k, st, skips => by
    unfold acquireLoop Sched.acquireLoop
    rcases (st.queues t).getNext with e | ⟨_ | n, q⟩
    · rfl
    · rfl
    · dsimp only
      split
      · rw [Asked.val_bind, releaseBlock_val]
        generalize Sched.releaseBlock g _ _ n _ = z
        rcases z with e | st3
        · rfl
        · exact acquireLoop_val t chk fuel _ st3 _
      · rfl

theorem acquireBlock_val (chk : Nat → N → Check) (st : Sched N T K) (t : T) :
    (acquireBlock g chk st t).val = st.acquireBlock g chk t := acquireLoop_val t chk _ _ _ _

end Counted
end Verif
