import Verif.Proofs.AnyGraph
import Verif.Proofs.Server

/-! # Which blocks the server skips and which it sends, and what the check function said -/

namespace Verif

open Spec

variable {N T K S : Type} [DecidableEq N] [DecidableEq T] [DecidableEq K] [DecidableEq S] {g : DGraph N T K}
  {σ σ' : Server N T K S} {chk : Nat → N → Check}

/-- Skipped blocks were accepted, blocks that are sent were not. -/
def Checked (chk : Nat → N → Check) : Out N T S → Prop
  | .skip n => ∃ i, chk i n = .accept
  | .send _ n => ∃ i, chk i n ≠ .accept
  | _ => True

/-- What is new in the log complies with the check function. -/
def OutStep (chk : Nat → N → Check) (σ σ' : Server N T K S) : Prop :=
  ∃ os, σ'.out = σ.out ++ os ∧ ∀ o ∈ os, Checked chk o

omit [DecidableEq N] [DecidableEq T] [DecidableEq K] [DecidableEq S] in
theorem OutStep.refl (σ : Server N T K S) : OutStep chk σ σ := ⟨[], by simp, by simp⟩

omit [DecidableEq N] [DecidableEq T] [DecidableEq K] [DecidableEq S] in
theorem OutStep.trans {σ'' : Server N T K S} (h : OutStep chk σ σ') (h' : OutStep chk σ' σ'') : OutStep chk σ σ'' := by
  obtain ⟨a, e1, h1⟩ := h
  obtain ⟨b, e2, h2⟩ := h'
  exact ⟨a ++ b, by rw [e2, e1, List.append_assoc], fun o ho => (List.mem_append.1 ho).elim (h1 o) (h2 o)⟩

omit [DecidableEq N] [DecidableEq T] [DecidableEq K] [DecidableEq S] in
theorem OutStep.emit {os : List (Out N T S)} (h : ∀ o ∈ os, Checked chk o) : OutStep chk σ (σ.emit os) := ⟨os, rfl, h⟩

omit [DecidableEq N] [DecidableEq T] [DecidableEq K] [DecidableEq S] in
theorem Frame.outStep (h : Frame σ σ') : OutStep chk σ σ' := by
  obtain ⟨os, e, ho⟩ := h.out
  refine ⟨os, e, fun o h => ?_⟩
  have := ho o h
  cases o <;> trivial

theorem release_outStep {pick : Nat → Finset N → N} {n : N} {status : BlockStatus}
    (h : σ.release g pick n status = .ok σ') : OutStep chk σ σ' := by
  unfold Server.release at h
  split at h
  · cases h
  · cases h
    refine OutStep.trans (σ' := (Server.emit _ _)) ⟨_, rfl, ?_⟩
      (((checkAll_frame _).trans (recruit_frame _)).outStep)
    intro o ho
    simp only [List.mem_cons, List.not_mem_nil, or_false] at ho
    rcases ho with rfl | rfl <;> trivial

theorem safeRelease_outStep {pick : Nat → Finset N → N} {n : N} {status : BlockStatus} {s : S}
    (h : σ.safeRelease g pick n status s = .ok σ') : OutStep chk σ σ' := by
  unfold Server.safeRelease at h
  split at h
  · split at h
    · cases h
    · next σ1 e1 =>
      split at h
      · cases h
      · cases h
        exact (release_outStep e1).trans ⟨[], by simp, by simp⟩
  · cases h
    exact .refl _

theorem handleAcquire_outStep {cfg : SConf T} {now : Int} {t : T} {s : S}
    (h : σ.handleAcquire g cfg chk now t s = .ok σ') : OutStep chk σ σ' := by
  unfold Server.handleAcquire at h
  split at h
  · cases h
  · next skips r st' ha =>
    obtain ⟨more, e1, e2, e3⟩ := acquireLoop_checks t chk _ _ ha
    have hsk : ∀ o ∈ skips.map (Out.skip (T := T) (S := S)), Checked chk o := by
      intro o ho
      obtain ⟨x, hx, rfl⟩ := List.mem_map.1 ho
      rw [e1, List.nil_append] at hx
      obtain ⟨i, hi⟩ := List.getElem?_of_mem hx
      exact ⟨_, e2 i x hi⟩
    have h1 : OutStep chk σ (({ σ with sched := st' } : Server N T K S).emit (skips.map .skip)) := ⟨_, rfl, hsk⟩
    dsimp only at h
    split at h
    · split_ifs at h
      · cases h
        exact h1.trans (OutStep.trans (OutStep.emit (by simp [Checked])) (recruit_frame _).outStep)
      · cases h
        exact h1
    · next n =>
      split at h
      · cases h
      · next book _ =>
        cases h
        refine h1.trans ⟨[.send s n, .acquired t], rfl, ?_⟩
        intro o ho
        simp only [List.mem_cons, List.not_mem_nil, or_false] at ho
        rcases ho with rfl | rfl
        · exact ⟨_, e3 n rfl⟩
        · trivial

theorem handle_outStep {cfg : SConf T} {pick : Nat → Finset N → N} {now : Int} {m : Msg N T} {s : S}
    (h : σ.handle g cfg chk pick now m s = .ok σ') : OutStep chk σ σ' := by
  unfold Server.handle at h
  dsimp only at h
  split at h
  · cases h
  · next σ1 e1 =>
    cases h
    refine OutStep.trans ?_ (checkAll_frame _).outStep
    cases m with
    | acquire t => exact handleAcquire_outStep e1
    | release n status => exact safeRelease_outStep e1
    | blockFailed n w =>
      dsimp only at e1
      split at e1
      · cases e1
      · next σ2 e2 =>
        cases e1
        exact (safeRelease_outStep e2).trans (OutStep.emit (by simp [Checked]))
    | clientException => cases e1
    | other => cases e1

theorem handleMessages_outStep {cfg : SConf T} {pick : Nat → Finset N → N} {now : Int} {r : Server.Recv N T S}
    (h : σ.handleMessages g cfg chk pick now r = .ok σ') : OutStep chk σ σ' := by
  cases r with
  | msg m s => exact handle_outStep h
  | closed => cases h; exact .refl _
  | nothing =>
    simp only [Server.handleMessages] at h
    split at h
    · cases h; exact .refl _
    · split at h
      · cases h; exact .refl _
      · exact OutStep.trans (σ' := { σ with pending := _ }) ⟨[], by simp, by simp⟩ (handle_outStep h)

theorem releaseLost_outStep {pick : N → Nat → Finset N → N} : ∀ {ns : List N} {σ : Server N T K S},
    Server.releaseLost g pick ns σ = .ok σ' → OutStep chk σ σ'
  | [], σ, h => by cases h; exact .refl _
  | n :: ns, σ, h => by
    unfold Server.releaseLost at h
    split at h
    · cases h
    · next e => exact (release_outStep e).trans (releaseLost_outStep h)

theorem iteration_outStep {cfg : SConf T} {k : Server.Tick N T S} (h : σ.iteration g cfg k = .ok σ') :
    OutStep k.chk σ σ' := by
  unfold Server.iteration at h
  split at h
  · cases h
  · next σ1 e1 =>
    split at h
    · cases h
    · next σ2 e2 =>
      cases h
      refine (handleMessages_outStep e1).trans (OutStep.trans (σ' := σ2) ?_ ?_)
      · unfold Server.checkLost at e2
        split at e2
        · cases e2
        · exact OutStep.trans (σ' := { σ1 with book := _ }) ⟨[], by simp, by simp⟩ (releaseLost_outStep e2)
      · split
        · exact (checkAll_frame _).outStep
        · exact .refl _

end Verif
