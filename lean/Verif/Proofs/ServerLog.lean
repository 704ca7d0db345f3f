import Verif.Proofs.ServerSteps

/-! # The server's log -/

set_option linter.unusedSectionVars false

namespace Verif

open Spec

variable {N T K S : Type} [DecidableEq N] [DecidableEq T] [DecidableEq K] [DecidableEq S]
  {g : DGraph N T K} {cfg : SConf T} {σ σ' : Server N T K S}

/-- In a log whose events are legal, a block is held iff it has a holder. -/
theorem log_held {out : List (Out N T S)} (hl : Legal g (evs out))
    (hs : ∀ n status, .release n status ∈ out → status = .success ∨ status = .failed) (n : N) :
    ((evs out).count (.good n) + (evs out).count (.bad n) ≤ (evs out).count (.hand n) ∧
      (evs out).count (.hand n) ≤ (evs out).count (.good n) + (evs out).count (.bad n) + 1) ∧
    (Held (evs out) n ↔ holder out n ≠ none) := by
  induction out using List.reverseRecOn generalizing n with
  | nil => simp [evs, Held, holder]
  | append_singleton out o ih =>
    rw [evs_append] at hl
    have ih := ih (legal_prefix hl rfl) (fun n st h => hs n st (List.mem_append_left _ h))
    have ihn := ih n
    rw [evs_append, holder_append]
    unfold Held at ihn ⊢
    cases o with
    | skip m =>
      have e : evs [(.skip m : Out N T S)] = [.skip m] := rfl
      rw [e]
      simpa [List.count_append, holderStep] using ihn
    | send s m =>
      have e : evs [(.send s m : Out N T S)] = [.hand m] := rfl
      rw [e] at hl ⊢
      by_cases hm : m = n
      · subst hm
        have hr : Ready g (evs out) m := hl (evs out) (.hand m) [] rfl
        have hr5 := hr.2.2.2.2
        unfold Held at hr5
        simp only [List.count_append, List.foldl_cons, List.foldl_nil, holderStep, if_true]
        simp
        omega
      · simpa [List.count_append, holderStep, hm] using ihn
    | release m status =>
      have hh : Held (evs out) m ∧ evs [(.release m status : Out N T S)] = [.good m] ∨
          Held (evs out) m ∧ evs [(.release m status : Out N T S)] = [.bad m] := by
        rcases hs m status (by simp) with rfl | rfl
        · exact Or.inl ⟨hl (evs out) (.good m) [] rfl, rfl⟩
        · exact Or.inr ⟨hl (evs out) (.bad m) [] rfl, rfl⟩
      rcases hh with ⟨hh, e⟩ | ⟨hh, e⟩ <;> rw [e] <;> unfold Held at hh
      · by_cases hm : m = n
        · subst hm
          simp only [List.count_append, List.foldl_cons, List.foldl_nil, holderStep, if_true]
          simp
          omega
        · simpa [List.count_append, holderStep, hm] using ihn
      · by_cases hm : m = n
        · subst hm
          simp only [List.count_append, List.foldl_cons, List.foldl_nil, holderStep, if_true]
          simp
          omega
        · simpa [List.count_append, holderStep, hm] using ihn
    | shutdown s t =>
      have e : evs [(.shutdown s t : Out N T S)] = [] := rfl
      rw [e, List.append_nil]
      exact ihn
    | taskStart t =>
      have e : evs [(.taskStart t : Out N T S)] = [] := rfl
      rw [e, List.append_nil]
      exact ihn
    | callback t =>
      have e : evs [(.callback t : Out N T S)] = [] := rfl
      rw [e, List.append_nil]
      exact ihn
    | taskDone t =>
      have e : evs [(.taskDone t : Out N T S)] = [] := rfl
      rw [e, List.append_nil]
      exact ihn
    | acquired t =>
      have e : evs [(.acquired t : Out N T S)] = [] := rfl
      rw [e, List.append_nil]
      exact ihn
    | released t =>
      have e : evs [(.released t : Out N T S)] = [] := rfl
      rw [e, List.append_nil]
      exact ihn
    | blockFailure m w =>
      have e : evs [(.blockFailure m w : Out N T S)] = [] := rfl
      rw [e, List.append_nil]
      exact ihn
    | recruit ts =>
      have e : evs [(.recruit ts : Out N T S)] = [] := rfl
      rw [e, List.append_nil]
      exact ihn

theorem Frame.mem_out (h : Frame σ σ') {o : Out N T S} (ho : ¬ Silent o) : o ∈ σ'.out ↔ o ∈ σ.out := by
  obtain ⟨os, e, hs⟩ := h.out
  rw [e, List.mem_append]
  constructor
  · rintro (h | h)
    · exact h
    · exact absurd (hs o h) ho
  · exact Or.inl

/-- Only SUCCESS and FAILED are ever passed to the scheduler. -/
theorem SRun.status (hg : g.Loose) {ks : List (Server.Tick N T S)} (h : SRun g cfg ks σ) :
    ∀ n status, .release n status ∈ σ.out → status = .success ∨ status = .failed := by
  refine h.induct hg (P := fun σ => ∀ n status, .release n status ∈ σ.out →
    status = .success ∨ status = .failed) ?_ ?_
  · intro n status hm
    unfold Server.init at hm
    rw [(recruit_frame _).mem_out id] at hm
    cases hm
  · intro a b _ _ hm ih n status hmem
    cases hm with
    | send bk h hn ht => exact ih n status (by simpa using hmem)
    | shut h h1 h2 =>
      rw [(recruit_frame _).mem_out id] at hmem
      exact ih n status (by simpa using hmem)
    | delay p h h1 h2 => exact ih n status (by simpa using hmem)
    | rel hn hs h =>
      rw [(recruit_frame _).mem_out id, (checkAll_frame _).mem_out id] at hmem
      simp only [List.mem_append, List.mem_cons, Out.release.injEq, reduceCtorEq, List.not_mem_nil,
        or_false] at hmem
      rcases hmem with h | ⟨_, rfl⟩
      · exact ih n status h
      · exact hs
    | check =>
      rw [(checkAll_frame _).mem_out id] at hmem
      exact ih n status hmem
    | fail n w => exact ih _ status (by simpa [Server.emit] using hmem)
    | book bk => exact ih n status hmem
    | pop p => exact ih n status hmem

/-- A client that does not hold a block gets it only by being sent it. -/
theorem holder_of_no_send {a os : List (Out N T S)} {n : N} {s : S} (h : .send s n ∉ os)
    (hh : holder (a ++ os) n = some s) : holder a n = some s := by
  rw [holder_append] at hh
  revert hh
  generalize holder a n = x
  intro hh
  induction os generalizing x with
  | nil => exact hh
  | cons o os ih =>
    rw [List.foldl_cons] at hh
    have := ih (fun h' => h (List.mem_cons_of_mem _ h')) _ hh
    cases o with
    | send s' m =>
      simp only [holderStep] at this
      split at this
      · rename_i hm
        subst hm
        cases this
        exact absurd List.mem_cons_self h
      · exact this
    | release m status =>
      simp only [holderStep] at this
      split at this
      · cases this
      · exact this
    | _ => exact this

/-- `s` is sent nothing when it has not asked for anything. -/
def NoSend (s : S) (σ σ' : Server N T K S) : Prop :=
  (∃ os, σ'.out = σ.out ++ os ∧ ∀ n, .send s n ∉ os) ∧ ∀ t, s ∉ σ'.pending t

theorem NoSend.trans {s : S} {a b c : Server N T K S} (h : NoSend s a b) (h' : NoSend s b c) :
    NoSend s a c := by
  obtain ⟨⟨os, h1, h2⟩, _⟩ := h
  obtain ⟨⟨os', h1', h2'⟩, h3'⟩ := h'
  refine ⟨⟨os ++ os', by rw [h1', h1, List.append_assoc], ?_⟩, h3'⟩
  intro n hm
  rcases List.mem_append.1 hm with h | h
  · exact h2 n h
  · exact h2' n h

theorem NoSend.frame {s : S} (h : ∀ t, s ∉ σ.pending t) (hf : Frame σ σ') : NoSend s σ σ' := by
  obtain ⟨os, h1, h2⟩ := hf.out
  exact ⟨⟨os, h1, fun n hm => h2 _ hm⟩, by rw [hf.pending]; exact h⟩

theorem handleAcquire_noSend (hg : g.Loose) (h : SInv g σ) {chk : Nat → N → Check} {now : Int} {t : T}
    {s s' : S} (ht : t ∈ cfg.served) (hs : s' ≠ s) (hp : ∀ t, s ∉ σ.pending t)
    (he : σ.handleAcquire g cfg chk now t s' = .ok σ') : NoSend s σ σ' := by
  obtain ⟨σ1, skips, r, h1, h2, h3, h4⟩ := handleAcquire_spec (cfg := cfg) hg h chk now s' ht
  rw [h1] at he
  cases he
  have hs' : ¬ s = s' := fun e => hs e.symm
  rcases r with _ | n
  · simp only at h4
    obtain ⟨_, h4⟩ := h4
    split at h4
    · rw [h4.2]
      refine NoSend.trans (b := { σ with
        sched := σ'.sched, out := σ.out ++ skips.map .skip ++ [.shutdown s' t] }) ?_
        (NoSend.frame hp (recruit_frame _))
      exact ⟨⟨skips.map .skip ++ [.shutdown s' t], by simp, by simp⟩, hp⟩
    · rw [h4.2.2]
      refine ⟨⟨skips.map .skip, rfl, by simp⟩, ?_⟩
      intro t'
      change s ∉ upd σ.pending t (σ.pending t ++ [s']) t'
      unfold upd
      split
      · rw [List.mem_append, not_or]
        exact ⟨hp _, by simpa using hs'⟩
      · exact hp t'
  · simp only at h4
    obtain ⟨h4, h5, _⟩ := h4
    refine ⟨⟨skips.map .skip ++ [.send s' n, .acquired t], by rw [h4, List.append_assoc], ?_⟩,
      by rw [h5]; exact hp⟩
    intro m hm
    simp at hm
    exact hs' hm.1

theorem safeRelease_noSend (hg : g.Loose) (h : SInv g σ) {n : N} (hn : n ∈ g.nodes) {s s' : S}
    {status : BlockStatus} (hst : status = .success ∨ status = .failed) {pick : Nat → Finset N → N}
    (hp : LegalPick pick) (hpend : ∀ t, s ∉ σ.pending t)
    (he : σ.safeRelease g pick n status s' = .ok σ') : NoSend s σ σ' := by
  obtain ⟨σ1, h1, _, h3, h4⟩ := safeRelease_spec hg h hn (s := s') hst hp
  rw [h1] at he
  cases he
  split at h4
  · obtain ⟨os, h5, h6⟩ := h4
    refine ⟨⟨_, h5, ?_⟩, by rw [h3]; exact hpend⟩
    intro m hm
    rcases List.mem_cons.1 hm with h | h
    · cases h
    · exact h6 _ h
  · rw [h4]
    exact ⟨⟨[], by simp, by simp⟩, hpend⟩

theorem handle_noSend (hg : g.Loose) (h : SInv g σ) {m : Msg N T} (hm : GoodMsg g cfg m) {s s' : S}
    {chk : Nat → N → Check} {pick : Nat → Finset N → N} (hp : LegalPick pick) {now : Int}
    (hms : ∀ t, m = .acquire t → s' ≠ s) (hpend : ∀ t, s ∉ σ.pending t)
    (he : σ.handle g cfg chk pick now m s' = .ok σ') : NoSend s σ σ' := by
  cases m with
  | acquire t =>
    obtain ⟨σ1, _, _, h1, _⟩ := handleAcquire_spec (cfg := cfg) hg h chk now s' hm
    simp only [Server.handle, h1] at he
    cases he
    have := handleAcquire_noSend hg h hm (hms t rfl) hpend h1
    exact this.trans (NoSend.frame this.2 (checkAll_frame _))
  | release n status =>
    obtain ⟨σ1, h1, _⟩ := safeRelease_spec hg h hm.1 (s := s') hm.2 hp
    simp only [Server.handle, h1] at he
    cases he
    have := safeRelease_noSend hg h hm.1 hm.2 hp hpend h1
    exact this.trans (NoSend.frame this.2 (checkAll_frame _))
  | blockFailed n w =>
    obtain ⟨σ1, h1, _⟩ := safeRelease_spec hg h (n := n) hm (s := s') (status := .failed) (Or.inr rfl) hp
    simp only [Server.handle, h1] at he
    cases he
    have := safeRelease_noSend hg h (n := n) hm (Or.inr rfl) hp hpend h1
    have hf : Frame σ1 (σ1.emit [.blockFailure n w]) :=
      ⟨rfl, rfl, rfl, [.blockFailure n w], rfl, by simp [Silent]⟩
    exact this.trans (NoSend.frame this.2 (hf.trans (checkAll_frame _)))
  | clientException => exact absurd hm id
  | other => exact absurd hm id

theorem iteration_noSend (hg : g.Loose) (h : SInv g σ) {k : Server.Tick N T S} (hk : GoodTick g cfg k) {s : S}
    (hks : ∀ t, k.recv ≠ .msg (.acquire t) s) (hpend : ∀ t, s ∉ σ.pending t)
    (he : σ.iteration g cfg k = .ok σ') : NoSend s σ σ' := by
  obtain ⟨σ1, h1, h2⟩ := handleMessages_ok hg h k.recv hk.1 k.chk hk.2.1 k.now
  have hn1 : NoSend s σ σ1 := by
    rcases hr : k.recv with ⟨m, s'⟩ | _ | _
    · rw [hr] at h1
      refine handle_noSend hg h (hk.1 m s' hr) hk.2.1 ?_ hpend h1
      rintro t rfl rfl
      exact hks t hr
    · rw [hr] at h1
      unfold Server.handleMessages at h1
      simp only at h1
      split at h1
      · cases h1; exact ⟨⟨[], by simp, by simp⟩, hpend⟩
      · rename_i t ht
        split at h1
        · cases h1; exact ⟨⟨[], by simp, by simp⟩, hpend⟩
        · rename_i s' rest hpt
          have hne : s' ≠ s := by
            rintro rfl
            exact hpend t (by rw [hpt]; exact List.mem_cons_self)
          have hpend' : ∀ t', s ∉ upd σ.pending t rest t' := by
            intro t'
            unfold upd
            split
            · intro hm
              apply hpend t
              rw [hpt]
              exact List.mem_cons_of_mem _ hm
            · exact hpend t'
          have hz : NoSend s σ { σ with pending := upd σ.pending t rest } :=
            ⟨⟨[], by simp, by simp⟩, hpend'⟩
          exact hz.trans (handle_noSend (cfg := cfg) hg (h.pending _) (m := .acquire t)
            (List.mem_of_find?_eq_some ht) hk.2.1 (fun _ _ => hne) hpend' h1)
    · rw [hr] at h1
      cases h1
      exact ⟨⟨[], by simp, by simp⟩, hpend⟩
  obtain ⟨σ2, os, L, h3, h4, _, h5, h6, h7, _⟩ := checkLost_ok hg h2 hk.2.2 k.closed k.clock
  have hn2 : NoSend s σ1 σ2 := by
    refine ⟨⟨os, h6, ?_⟩, by rw [h5]; exact hn1.2⟩
    intro n hm
    rcases h7 _ hm with h | ⟨m, _, h⟩
    · exact h
    · cases h
  unfold Server.iteration at he
  rw [h1] at he
  simp only at he
  rw [h3] at he
  cases he
  refine (hn1.trans hn2).trans ?_
  split
  · exact NoSend.frame hn2.2 (checkAll_frame σ2)
  · exact ⟨⟨[], by simp, by simp⟩, hn2.2⟩

theorem SSteps.noSend (hg : g.Loose) (h : SInv g σ) {ks : List (Server.Tick N T S)} {s : S}
    (hks : ∀ k ∈ ks, ∀ t, k.recv ≠ .msg (.acquire t) s) (hpend : ∀ t, s ∉ σ.pending t)
    (hr : SSteps g cfg σ ks σ') : NoSend s σ σ' ∧ SInv g σ' := by
  induction hr with
  | nil => exact ⟨⟨⟨[], by simp, by simp⟩, hpend⟩, h⟩
  | step k _ _ hk he ih =>
    obtain ⟨h1, h2⟩ := ih (fun k' hk' => hks k' (List.mem_append_left _ hk'))
    obtain ⟨σ3, h3, h4⟩ := iteration_ok hg h2 hk
    rw [h3] at he
    cases he
    exact ⟨h1.trans (iteration_noSend hg h2 hk (hks k (by simp)) h1.2 h3), h4⟩

end Verif
