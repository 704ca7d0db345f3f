import Verif.Proofs.System

/-! # A block stays with its client until it is given back or the client is gone -/

set_option linter.unusedSectionVars false

namespace Verif.Spec

open Verif

variable {N T K S : Type} [DecidableEq N] [DecidableEq T] [DecidableEq K] [DecidableEq S]
variable {g : DGraph N T K} {cfg : SConf T} {σ σ' : Server N T K S}

/-- Nothing happens to block `n`. -/
def Keep (n : N) (σ σ' : Server N T K S) : Prop :=
  (∃ os, σ'.out = σ.out ++ os ∧ ∀ st, .release n st ∉ os) ∧ holder σ'.out n = holder σ.out n

theorem Keep.trans {n : N} {a b c : Server N T K S} (h : Keep n a b) (h' : Keep n b c) : Keep n a c := by
  obtain ⟨⟨os, h1, h2⟩, h3⟩ := h
  obtain ⟨⟨os', h1', h2'⟩, h3'⟩ := h'
  refine ⟨⟨os ++ os', by rw [h1', h1, List.append_assoc], ?_⟩, h3'.trans h3⟩
  intro st hm
  rcases List.mem_append.1 hm with h | h
  · exact h2 st h
  · exact h2' st h

theorem Keep.frame {n : N} (hf : Frame σ σ') : Keep n σ σ' := by
  obtain ⟨os, h1, h2⟩ := hf.out
  exact ⟨⟨os, h1, fun st hm => h2 _ hm⟩, hf.holder n⟩

theorem Keep.refl (n : N) (σ : Server N T K S) : Keep n σ σ := Keep.frame (Frame.refl σ)

theorem handleAcquire_keep (hg : g.Loose) (h : SInv g σ) {chk : Nat → N → Check} {now : Int} {t : T} {s : S} {n : N}
    (ht : t ∈ cfg.served) (hn : holder σ.out n ≠ none) (he : σ.handleAcquire g cfg chk now t s = .ok σ') :
    Keep n σ σ' := by
  obtain ⟨σ1, skips, r, h1, h2, h3, h4⟩ := handleAcquire_spec (cfg := cfg) hg h chk now s ht
  rw [h1] at he
  cases he
  have hsk : ∀ st, (.release n st : Out N T S) ∉ skips.map .skip := by
    intro st hm
    obtain ⟨m, _, hm⟩ := List.mem_map.1 hm
    cases hm
  rcases r with _ | m
  · simp only at h4
    obtain ⟨_, h4⟩ := h4
    split at h4
    · have e := h4.2
      rw [e]
      refine Keep.trans (b := { σ with
        sched := σ'.sched, out := σ.out ++ skips.map .skip ++ [.shutdown s t] }) ?_
        (Keep.frame (recruit_frame _))
      refine ⟨⟨skips.map .skip ++ [.shutdown s t], by simp, ?_⟩, ?_⟩
      · intro st hm
        rcases List.mem_append.1 hm with hm | hm
        · exact hsk st hm
        · simp at hm
      · rw [holder_append]
        simp only [List.foldl_cons, List.foldl_nil, holderStep]
        exact holder_skips skips n
    · exact ⟨⟨_, h4.2.1, hsk⟩, by rw [h4.2.1]; exact holder_skips skips n⟩
  · simp only at h4
    obtain ⟨h5, _, h6, _⟩ := h4
    have hne : m ≠ n := by rintro rfl; exact hn h6
    refine ⟨⟨skips.map .skip ++ [.send s m, .acquired t], by rw [h5]; simp, ?_⟩, ?_⟩
    · intro st hm
      rcases List.mem_append.1 hm with hm | hm
      · exact hsk st hm
      · simp at hm
    · rw [h5, holder_append]
      simp only [List.foldl_cons, List.foldl_nil, holderStep, if_neg hne]
      exact holder_skips skips n

theorem safeRelease_keep (hg : g.Loose) (h : SInv g σ) {m n : N} (hm : m ∈ g.nodes) {s s' : S}
    {status : BlockStatus} (hst : status = .success ∨ status = .failed) {pick : Nat → Finset N → N}
    (hp : LegalPick pick) (hn : holder σ.out n = some s) (hne : m = n → s' ≠ s)
    (he : σ.safeRelease g pick m status s' = .ok σ') : Keep n σ σ' := by
  obtain ⟨σ1, h1, _, _, h4⟩ := safeRelease_spec hg h hm (s := s') hst hp
  rw [h1] at he
  cases he
  split at h4
  · next hh =>
    obtain ⟨os, h5, h6⟩ := h4
    have hmn : m ≠ n := by
      rintro rfl
      rw [hn] at hh
      exact hne rfl (Option.some.inj hh).symm
    refine ⟨⟨_, h5, ?_⟩, ?_⟩
    · intro st hm
      rcases List.mem_cons.1 hm with hm | hm
      · cases hm; exact hmn rfl
      · exact h6 _ hm
    · rw [h5, holder_append, List.foldl_cons, fold_silent n os _ h6]
      simp [holderStep, hmn]
  · rw [h4]; exact Keep.refl n _

theorem handle_keep (hg : g.Loose) (h : SInv g σ) {m : Msg N T} (hm : GoodMsg g cfg m) {n : N} {s s' : S}
    {chk : Nat → N → Check} {pick : Nat → Finset N → N} (hp : LegalPick pick) {now : Int}
    (hn : holder σ.out n = some s)
    (hne : ((∃ status, m = .release n status) ∨ ∃ w, m = .blockFailed n w) → s' ≠ s)
    (he : σ.handle g cfg chk pick now m s' = .ok σ') : Keep n σ σ' := by
  cases m with
  | acquire t =>
    obtain ⟨σ1, _, _, h1, _⟩ := handleAcquire_spec (cfg := cfg) hg h chk now s' hm
    simp only [Server.handle, h1] at he
    cases he
    exact (handleAcquire_keep hg h hm (by rw [hn]; exact Option.some_ne_none s) h1).trans
      (Keep.frame (checkAll_frame _))
  | release m status =>
    obtain ⟨σ1, h1, _⟩ := safeRelease_spec hg h hm.1 (s := s') hm.2 hp
    simp only [Server.handle, h1] at he
    cases he
    exact (safeRelease_keep hg h hm.1 hm.2 hp hn (by rintro rfl; exact hne (Or.inl ⟨_, rfl⟩)) h1).trans
      (Keep.frame (checkAll_frame _))
  | blockFailed m w =>
    obtain ⟨σ1, h1, _⟩ := safeRelease_spec hg h (n := m) hm (s := s') (status := .failed) (Or.inr rfl) hp
    simp only [Server.handle, h1] at he
    cases he
    have hf : Frame σ1 (σ1.emit [.blockFailure m w]) :=
      ⟨rfl, rfl, rfl, [.blockFailure m w], rfl, by simp [Silent]⟩
    exact (safeRelease_keep hg h hm (Or.inr rfl) hp hn (by rintro rfl; exact hne (Or.inr ⟨_, rfl⟩)) h1).trans
      (Keep.frame (hf.trans (checkAll_frame _)))
  | clientException => exact absurd hm id
  | other => exact absurd hm id

/-- The part of an iteration after the message. -/
theorem iteration_split {k : Server.Tick N T S} (h : σ.iteration g cfg k = .ok σ') :
    ∃ σ1 σ2, σ.handleMessages g cfg k.chk k.pick k.now k.recv = .ok σ1 ∧
      σ1.checkLost g k.pickLost k.closed k.clock = .ok σ2 ∧ σ' = if k.late then σ2.checkAll g else σ2 := by
  unfold Server.iteration at h
  split at h
  · cases h
  · next σ1 h1 =>
    split at h
    · cases h
    · next σ2 h2 => cases h; exact ⟨σ1, σ2, h1, h2, rfl⟩

theorem checkLost_keep (hg : g.Loose) (h : SInv g σ) {pick : N → Nat → Finset N → N} (hp : ∀ n, LegalPick (pick n))
    {closed : S → Bool} {clock : Nat → Int} {n : N} {s : S} (hn : holder σ.out n = some s)
    (hc : closed s = false) (he : σ.checkLost g pick closed clock = .ok σ') : Keep n σ σ' := by
  obtain ⟨σ1, os, L, c1, c2, c3, c4, c5, c6, c7, c8, c9, c10, c11⟩ := checkLost_ok hg h hp closed clock
  rw [c1] at he
  cases he
  have hL : n ∉ L := by
    intro hL
    obtain ⟨s', h1, h2⟩ := (c9 n).1 hL
    rw [hn] at h1
    cases h1
    rw [hc] at h2
    cases h2
  refine ⟨⟨os, c5, ?_⟩, by rw [c11, if_neg hL]⟩
  intro st hm
  have := c10 n st
  rw [if_neg (fun hx => hL hx.1)] at this
  exact absurd hm (List.count_eq_zero.1 this)

theorem late_frame (σ : Server N T K S) (b : Bool) : Frame σ (if b then σ.checkAll g else σ) := by
  split
  · exact checkAll_frame σ
  · exact Frame.refl σ

end Verif.Spec
