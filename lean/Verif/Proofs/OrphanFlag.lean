import Verif.Model.OrphanFlag
import Verif.Proofs.QueriesRun

/-! # What the release of a block that failed for good costs at least -/

namespace Verif.Counted

open Spec

variable {N T K : Type} [DecidableEq N] {g : DGraph N T K}

/-- Every orphan costs at least two questions. -/
theorem orphanLoop_asks_lower (pick : Nat → Finset N → N) :
    ∀ (fuel k : Nat) (work : Finset N) (rs : RS N) (o o' : Finset N) (rs' : RS N),
      RS.orphanLoop g pick fuel k work rs o = .ok (o', rs') →
      2 * o'.card ≤ (orphanLoop g pick fuel k work rs o).asks + 2 * o.card
  | 0, _, _, _, _, _, _, h => by cases h
  | fuel + 1, k, work, rs, o, o', rs', h => by
    unfold RS.orphanLoop at h
    unfold orphanLoop
    by_cases h0 : work = ∅
    · rw [if_pos h0] at h ⊢
      cases h
      simp
    · rw [if_neg h0] at h ⊢
      dsimp only at h ⊢
      by_cases h1 : pick k work ∈ work
      · rw [if_neg (not_not.2 h1)] at h ⊢
        rw [Asked.asks_bind, addToBoundary_val, addToBoundary_asks]
        generalize pick k work = m at h h1
        rcases hadd : RS.addToBoundary g rs m with ⟨_ | _, rs1⟩
        · rw [hadd] at h
          have := orphanLoop_asks_lower pick fuel (k + 1) (work.erase m) rs1 o o' rs' h
          simp only
          omega
        · rw [hadd] at h
          have := orphanLoop_asks_lower pick fuel (k + 1) _ rs1 (insert m o) o' rs' h
          have hc := Finset.card_insert_le m o
          simp only [Asked.asks_bind, askDown]
          omega
      · rw [if_pos h1] at h
        cases h

theorem markFailure_asks_lower (pick : Nat → Finset N → N) {rs rs' : RS N} {n : N} {o : Finset N}
    (h : RS.markFailure g pick rs n = .ok (o, rs')) : 2 * o.card ≤ (markFailure g pick rs n).asks := by
  unfold RS.markFailure at h
  unfold markFailure
  simp only [Asked.asks_bind, askUp, askDown] at h ⊢
  by_cases hs : ∀ u ∈ g.up n, u ∈ rs.surface
  · rw [if_neg (not_not.2 hs)] at h ⊢
    simp only [Asked.asks_bind, orphanLoop_val]
    rcases hl : RS.orphanLoop g pick (RS.orphanFuel g) 0 (g.down n).toFinset
      { rs with boundary := insert n rs.boundary } ∅ with e | ⟨o1, rs2⟩
    · rw [hl] at h; cases h
    · rw [hl] at h
      have h1 := orphanLoop_asks_lower pick (RS.orphanFuel g) 0 (g.down n).toFinset
        { rs with boundary := insert n rs.boundary } ∅ o1 rs2 hl
      have ho : o = o1 := by
        dsimp only at h
        cases hc : RS.cleanUps g (g.up n) rs2 with
        | error e => rw [hc] at h; cases h
        | ok rs3 =>
          rw [hc] at h
          dsimp only at h
          split at h
          · cases hr : RS.setRemove rs3.boundary n with
            | error e => rw [hr] at h; cases h
            | ok b => rw [hr] at h; cases h; rfl
          · cases h; rfl
      subst ho
      rw [Finset.card_empty] at h1
      omega
  · rw [if_pos hs] at h
    cases h

end Verif.Counted
