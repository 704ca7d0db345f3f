import Verif.Proofs.OrderServer
import Verif.Proofs.SerialData

/-! # The serial server on reordered graphs (lemmas) -/

set_option linter.unusedSectionVars false

namespace Verif
open Spec Verif.Order

variable {N T K : Type} [DecidableEq N] [DecidableEq T] [DecidableEq K] {g g' : DGraph N T K} {served : List T}
  {σ σ' : Serial N T K}

theorem acquireAny_reordered (h : Reordered g g') (hg : g.OK) (chk : T → Nat → N → Check) : ∀ (ts : List T)
    {tr : List (Ev N)} {st : Sched N T K}, Run g tr st → Serial.acquireAny g' chk ts st = Serial.acquireAny g chk ts st
  | [], _, _, _ => rfl
  | t :: ts, tr, st, hr => by
    obtain ⟨sk, r, st1, f1, _⟩ := (hr.inv hg).acquire hg (chk t) t
    unfold Serial.acquireAny
    rw [acquire_reordered h hg (hr.inv hg), f1]
    cases r with
    | some n => rfl
    | none =>
      simp only
      rw [acquireAny_reordered h hg chk ts (Run.acquire (chk t) t hr f1)]

theorem pass_reordered (h : Reordered g g') (hg : g.OK) (hi : SerInv g served σ) {k k' : SerTick N T}
    (hp : LegalPick k.pick) (hp' : LegalPick k'.pick) (hk : SamePop k k') :
    σ.pass g' served k' = σ.pass g served k := by
  have hready : σ.sched.getReadyTasks g' = σ.sched.getReadyTasks g := by
    unfold Sched.getReadyTasks Sched.stateKeys
    rw [h.rootTasks, h.tasks]
  unfold Serial.pass
  rw [hk]
  simp only
  split
  · rfl
  · rw [hready, acquireAny_reordered h hg k.chk _ hi.run]
    obtain ⟨sk, r, st, f1, f2, _⟩ := acquireAny_spec hg k.chk (σ.sched.getReadyTasks g) hi.run
    rw [f1]
    cases r with
    | none => rfl
    | some n =>
      have hrel : ∀ s, s = .success ∨ s = .failed → st.releaseBlock g' k'.pick n s = st.releaseBlock g k.pick n s :=
        fun s hs => held_release_reordered h hg f2 (held_acquired hg hi.run sk n) hs hp hp'
      simp only [h.task]
      generalize hσ1 : (({ σ.emit (sk.map .skip) with sched := st } : Serial N T K).startTask (g.task n)).emit
        [.acquired (g.task n)] = σ1
      have hs1 : σ1.sched = st := by
        rw [← hσ1]
        exact (startTask_eq _ _).1
      split
      · split
        · rfl
        · have := hrel _ ((statusAfter_cases σ1 n (k.proc n)).symm)
          change (match σ1.sched.releaseBlock g' _ _ _ with | .error e => _ | .ok st' => _) =
            (match σ1.sched.releaseBlock g _ _ _ with | .error e => _ | .ok st' => _)
          rw [hs1, this]
      · rfl

theorem serRun_reordered (h : Reordered g g') (hg : g.OK) {ks ks' : List (SerTick N T)} (hr : SerRun g served ks σ)
    (hks : List.Forall₂ SamePop ks ks') (hl : ∀ k ∈ ks', LegalPick k.pick) : SerRun g' served ks' σ := by
  induction hr generalizing ks' with
  | init =>
    cases hks
    have : (Serial.init g served : Serial N T K) = Serial.init g' served := by
      unfold Serial.init
      rw [init_shuffled h.toShuffled]
    rw [this]
    exact .init
  | pass hr he hp hpass ih =>
    obtain ⟨l, k', hl', hkk, rfl⟩ := forall₂_snoc hks
    have hpk := hl k' (by simp)
    refine .pass (ih hl' (fun x hx => hl x (by simp [hx]))) he hpk ?_
    rw [pass_reordered h hg (hr.inv hg) hp hpk hkk]
    exact hpass

end Verif
