import Verif.Proofs.ClusterInv

/-! # Where the blocks that the server counts as completed come from -/

set_option linter.unusedSectionVars false

namespace Verif

open Spec

variable {N T K S : Type} [DecidableEq N] [DecidableEq T] [DecidableEq K] [DecidableEq S]
  {g : DGraph N T K} {cfg : SConf T} {c : SysConf T} {σ σ' : Server N T K S}

/-! ### Releases of the server -/

/-- What the server has when it releases block `n` with status `st` because of message `m`. -/
def RelMsg (n : N) (st : BlockStatus) (m : Msg N T) : Prop :=
  m = .release n st ∨ (st = .failed ∧ ∃ w, m = .blockFailed n w)

theorem silent_release {os : List (Out N T S)} (h : ∀ o ∈ os, Silent o) {n : N} {st : BlockStatus} :
    .release n st ∉ os := fun hm => h _ hm

theorem skips_release {l : List N} {n : N} {st : BlockStatus} :
    (.release n st : Out N T S) ∉ l.map .skip := by
  intro h
  obtain ⟨_, _, e⟩ := List.mem_map.1 h
  cases e

theorem frame_release (hf : Frame σ σ') {n : N} {st : BlockStatus} :
    .release n st ∈ σ'.out ↔ .release n st ∈ σ.out := by
  obtain ⟨os, e, h⟩ := hf.out
  rw [e, List.mem_append]
  exact ⟨fun h' => h'.resolve_right (silent_release h), Or.inl⟩

theorem handle_release (hg : g.Loose) (h : SInv g σ) {m : Msg N T} (hm : GoodMsg g cfg m) {s : S}
    {chk : Nat → N → Check} {pick : Nat → Finset N → N} (hp : LegalPick pick) {now : Int}
    (he : σ.handle g cfg chk pick now m s = .ok σ') {n : N} {st : BlockStatus} (hr : .release n st ∈ σ'.out) :
    .release n st ∈ σ.out ∨ (RelMsg n st m ∧ holder σ.out n = some s) := by
  have hret : ∀ (σ1 : Server N T K S) n' st', σ.safeRelease g pick n' st' s = .ok σ1 → n' ∈ g.nodes →
      (st' = .success ∨ st' = .failed) → .release n st ∈ σ1.out →
      .release n st ∈ σ.out ∨ (n = n' ∧ st = st' ∧ holder σ.out n = some s) := by
    intro σ1 n' st' h1 hn hs hr
    obtain ⟨σ2, s1, _, _, s4⟩ := safeRelease_spec hg h hn (s := s) hs hp
    rw [s1] at h1
    cases h1
    split at s4
    · rename_i hv
      obtain ⟨os, e, ho⟩ := s4
      rw [e, List.mem_append, List.mem_cons] at hr
      rcases hr with hr | hr | hr
      · exact Or.inl hr
      · cases hr; exact Or.inr ⟨rfl, rfl, hv⟩
      · exact absurd hr (silent_release ho)
    · rw [s4] at hr; exact Or.inl hr
  cases m with
  | acquire t =>
    obtain ⟨σ1, skips, r, h1, _, _, h4⟩ := handleAcquire_spec (cfg := cfg) hg h chk now s hm
    simp only [Server.handle, h1] at he
    cases he
    rw [frame_release (checkAll_frame _)] at hr
    left
    rcases r with _ | n'
    · dsimp only at h4
      obtain ⟨_, h4⟩ := h4
      split at h4
      · obtain ⟨_, e⟩ := h4
        rw [e, frame_release (recruit_frame _)] at hr
        change _ ∈ σ.out ++ skips.map .skip ++ [.shutdown s t] at hr
        simp only [List.mem_append, List.mem_singleton] at hr
        rcases hr with (hr | hr) | hr
        · exact hr
        · exact absurd hr skips_release
        · cases hr
      · obtain ⟨_, eo, _⟩ := h4
        rw [eo, List.mem_append] at hr
        exact hr.resolve_right skips_release
    · dsimp only at h4
      rw [h4.1] at hr
      simp only [List.mem_append, List.mem_cons, List.not_mem_nil, or_false] at hr
      rcases hr with (hr | hr) | hr | hr
      · exact hr
      · exact absurd hr skips_release
      · cases hr
      · cases hr
  | release n' st' =>
    obtain ⟨σ1, h1, _⟩ := safeRelease_spec hg h hm.1 (s := s) hm.2 hp
    simp only [Server.handle, h1] at he
    cases he
    rw [frame_release (checkAll_frame _)] at hr
    rcases hret σ1 n' st' h1 hm.1 hm.2 hr with hr | ⟨rfl, rfl, hv⟩
    · exact Or.inl hr
    · exact Or.inr ⟨Or.inl rfl, hv⟩
  | blockFailed n' w =>
    obtain ⟨σ1, h1, _⟩ := safeRelease_spec hg h (n := n') hm (s := s) (status := .failed) (Or.inr rfl) hp
    simp only [Server.handle, h1] at he
    cases he
    have hf0 : Frame σ1 (σ1.emit [.blockFailure n' w]) :=
      ⟨rfl, rfl, rfl, [.blockFailure n' w], rfl, by simp [Silent]⟩
    rw [frame_release (hf0.trans (checkAll_frame _))] at hr
    rcases hret σ1 n' .failed h1 hm (Or.inr rfl) hr with hr | ⟨rfl, rfl, hv⟩
    · exact Or.inl hr
    · exact Or.inr ⟨Or.inr ⟨rfl, w, rfl⟩, hv⟩
  | clientException => exact absurd hm id
  | other => exact absurd hm id

theorem handleMessages_release (hg : g.Loose) (h : SInv g σ) {r : Server.Recv N T S}
    (hr : ∀ m s, r = .msg m s → GoodMsg g cfg m) {chk : Nat → N → Check} {pick : Nat → Finset N → N}
    (hp : LegalPick pick) {now : Int} (he : σ.handleMessages g cfg chk pick now r = .ok σ')
    {n : N} {st : BlockStatus} (hm : .release n st ∈ σ'.out) :
    .release n st ∈ σ.out ∨ ∃ m s, r = .msg m s ∧ RelMsg n st m ∧ holder σ.out n = some s := by
  cases r with
  | msg m s =>
    rcases handle_release hg h (hr m s rfl) hp he hm with h1 | h1
    · exact Or.inl h1
    · exact Or.inr ⟨m, s, rfl, h1⟩
  | closed => cases he; exact Or.inl hm
  | nothing =>
    unfold Server.handleMessages at he
    dsimp only at he
    split at he
    · cases he; exact Or.inl hm
    · rename_i t ht
      have hts := List.mem_of_find?_eq_some ht
      split at he
      · cases he; exact Or.inl hm
      · rename_i s rest hpt
        rcases handle_release (cfg := cfg) hg (h.pending (upd σ.pending t rest)) (m := .acquire t) hts hp he hm
          with h1 | ⟨h1 | ⟨_, w, h1⟩, _⟩
        · exact Or.inl h1
        · cases h1
        · cases h1

/-- Who has a block was sent it. -/
theorem holder_sent {n : N} {s : S} : ∀ (os : List (Out N T S)), holder os n = some s → .send s n ∈ os := by
  intro os
  induction os using List.reverseRecOn with
  | nil => intro h; cases h
  | append_singleton os o ih =>
    intro h
    rw [holder_append] at h
    simp only [List.foldl_cons, List.foldl_nil] at h
    cases o with
    | send s' m =>
      simp only [holderStep] at h
      split_ifs at h with hm
      · injection h with h
        subst hm h
        simp
      · exact List.mem_append_left _ (ih h)
    | release m st =>
      simp only [holderStep] at h
      split_ifs at h with hm
      exact List.mem_append_left _ (ih h)
    | _ => exact List.mem_append_left _ (ih h)

/-- A block is released because of a message, or because its stream was closed. -/
theorem iteration_release (hg : g.Loose) (h : SInv g σ) {k : Server.Tick N T S} (hk : GoodTick g cfg k)
    (he : σ.iteration g cfg k = .ok σ') {n : N} {st : BlockStatus} (hm : .release n st ∈ σ'.out) :
    .release n st ∈ σ.out ∨ (∃ m s, k.recv = .msg m s ∧ RelMsg n st m ∧ holder σ.out n = some s) ∨
      (st = .failed ∧ ∃ s, k.closed s = true ∧ .send s n ∈ σ'.out) := by
  obtain ⟨σ1, σ2, e1, e2, e3⟩ := iteration_split he
  obtain ⟨i1, o, p, os, t1, o1, f1⟩ := handleMessages_effect hg h hk.1 hk.2.1 e1
  obtain ⟨σ3, os', L, c1, c2, c3, c4, c5, c6, c7, c8, c9, c10, c11⟩ := checkLost_ok hg i1 hk.2.2 k.closed k.clock
  rw [c1] at e2
  cases e2
  have hf : Frame σ2 σ' := by
    rw [e3]
    split
    · exact checkAll_frame _
    · exact Frame.refl _
  rw [frame_release hf, c5, List.mem_append] at hm
  rcases hm with hm | hm
  · rcases handleMessages_release hg h hk.1 hk.2.1 e1 hm with h1 | h1
    · exact Or.inl h1
    · exact Or.inr (Or.inl h1)
  · rcases c6 _ hm with hs | ⟨n', hn', e⟩
    · exact absurd hs id
    · cases e
      obtain ⟨s, h1, h2⟩ := (c9 n).1 hn'
      refine Or.inr (Or.inr ⟨rfl, s, h2, ?_⟩)
      obtain ⟨os2, e4, _⟩ := hf.out
      rw [e4, c5]
      exact List.mem_append_left _ (List.mem_append_left _ (holder_sent _ h1))

/-! ### Clients -/

variable {es : List (ClEv N T S)} {x y : Cluster N T K S}

theorem Ran.mono {n : N} {P : BodyEnd → Prop} (h : Ran g c es n P) (e : ClEv N T S) : Ran g c (es ++ [e]) n P := by
  obtain ⟨es1, s, body, es2, y, rfl, h1, h2, h3⟩ := h
  exact ⟨es1, s, body, es2 ++ [e], y, by simp, h1, h2, h3⟩

/-- A block that a client has or is about to get. -/
def Has (k : Conn N T) (n : N) : Prop :=
  .sendBlock n ∈ unread k ∨ k.phase = .working n ∨ ∃ e, k.phase = .failing n e

/-- What a client knows or says about how the process function ended. -/
structure ConnHist (R : N → (BodyEnd → Prop) → Prop) (k : Conn N T) : Prop where
  well : ∀ n, .release n .success ∈ underway k → R n EndsWell
  badly : ∀ n m, m ∈ underway k → RelMsg n .failed m → R n (fun b => ¬ EndsWell b)
  failing : ∀ n e, k.phase = .failing n e → R n (fun b => ¬ EndsWell b)

theorem ConnHist.sub {R : N → (BodyEnd → Prop) → Prop} {k k' : Conn N T} (h : ConnHist R k)
    (hu : ∀ m ∈ underway k', m ∈ underway k) (hf : ∀ n e, k'.phase = .failing n e → k.phase = .failing n e) :
    ConnHist R k' :=
  ⟨fun n hm => h.well n (hu _ hm), fun n m hm hr => h.badly n m (hu _ hm) hr,
    fun n e hp => h.failing n e (hf n e hp)⟩

theorem exits_hist {R : N → (BodyEnd → Prop) → Prop} {k : Conn N T} (h : ConnHist R k) {n : N} {st : StatusVal}
    {e : Option ClientErr} (h1 : st = .enum .success → R n EndsWell)
    (h2 : st ≠ .enum .success → R n (fun b => ¬ EndsWell b)) :
    ConnHist R (k.exits (Client.finish k.tcp n st e)) := by
  unfold Client.finish
  dsimp only
  have hph : ∀ (r : Option ClientErr × TcpClient N T) n e, (k.exits r).phase = .failing n e → False := by
    rintro ⟨_ | e, r⟩ n e' hp <;> cases hp
  have hst : ∃ b : BlockStatus, (b = .success → R n EndsWell) ∧ (b = .failed → R n (fun b => ¬ EndsWell b)) ∧
      (if st ≠ .enum .success then .enum .failed else st) = .enum b := by
    by_cases hs : st = .enum .success
    · exact ⟨.success, fun _ => h1 hs, fun e => (by cases e), by rw [if_neg (not_not.2 hs), hs]⟩
    · exact ⟨.failed, fun e => (by cases e), fun _ => h2 hs, by rw [if_pos hs]⟩
  obtain ⟨b, hb1, hb2, hbe⟩ := hst
  rw [hbe]
  rcases send_cases k.tcp (.release n (.enum b)) with ⟨e', c', g1, _, g3, _⟩ | ⟨g1, g2⟩
  · rw [g1]
    refine h.sub ?_ (fun n e hp => (hph _ n e hp).elim)
    intro m hm; simpa only [Conn.exits, underway, g3] using hm
  · rw [g1]
    have hund : underway (k.exits (e, { k.tcp with outbox := k.tcp.outbox ++ [.release n (.enum b)] })) =
        underway k ++ [.release n b] := by
      cases e <;> simp [Conn.exits, underway, List.filterMap_append, Conn.toMsg]
    refine ⟨?_, ?_, fun n e hp => (hph _ n e hp).elim⟩
    · intro n' hm
      rw [hund, List.mem_append, List.mem_singleton] at hm
      rcases hm with hm | hm
      · exact h.well n' hm
      · cases hm; exact hb1 rfl
    · intro n' m hm hr
      rw [hund, List.mem_append, List.mem_singleton] at hm
      rcases hm with hm | rfl
      · exact h.badly n' m hm hr
      · rcases hr with hr | ⟨_, w, hr⟩
        · cases hr; exact hb2 rfl
        · cases hr

theorem ConnHist.step {R : N → (BodyEnd → Prop) → Prop} {k : Conn N T} (h : ConnHist R k) (body : BodyEnd)
    (hw : ∀ n, k.phase = .working n → ∀ P : BodyEnd → Prop, P body → R n P) : ConnHist R (k.step body) := by
  cases hph : k.phase with
  | idle =>
    simp only [Conn.step, hph]
    rcases send_cases k.tcp (.acquire k.task) with ⟨e', c', g1, _, g3, _⟩ | ⟨g1, g2⟩
    · rw [g1]
      refine h.sub ?_ (fun n e hp => by cases hp)
      intro m hm; simpa only [underway, g3] using hm
    · rw [g1]
      dsimp only
      have hund : underway { k with
          tcp := { k.tcp with outbox := k.tcp.outbox ++ [.acquire k.task] }, phase := .waiting } =
          underway k ++ [.acquire k.task] := by
        simp [underway, List.filterMap_append, Conn.toMsg]
      refine ⟨?_, ?_, fun n e hp => by cases hp⟩
      · intro n hm
        rw [hund, List.mem_append, List.mem_singleton] at hm
        rcases hm with hm | hm
        · exact h.well n hm
        · cases hm
      · intro n m hm hr
        rw [hund, List.mem_append, List.mem_singleton] at hm
        rcases hm with hm | rfl
        · exact h.badly n m hm hr
        · rcases hr with hr | ⟨_, w, hr⟩ <;> cases hr
  | waiting =>
    simp only [Conn.step, hph]
    rcases get_cases k.tcp with ⟨e', c', g1, _, g3, _⟩ | ⟨_, ⟨_, g1⟩ | ⟨m, r, _, g1⟩⟩
    · rw [g1]
      have : ∀ o, ConnHist R { k with tcp := c', phase := .ended o } := by
        intro o
        refine h.sub ?_ (fun n e hp => by cases hp)
        intro m hm; simpa only [underway, g3] using hm
      cases e' <;> exact this _
    · rw [g1]
      dsimp only
      rw [← hph]
      exact h
    · rw [g1]
      cases m with
      | sendBlock b => exact h.sub (fun m hm => hm) (fun n e hp => by cases hp)
      | other => exact h.sub (fun m hm => hm) (fun n e hp => by cases hp)
      | requestShutdown =>
        dsimp only
        split
        · exact h.sub (fun m hm => hm) (fun n e hp => by cases hp)
        · split
          · exact h.sub (fun m hm => hm) (fun n e hp => by cases hp)
          · refine h.sub ?_ (fun n e hp => by cases hp)
            intro m hm
            simpa [underway, List.filterMap_append, Conn.toMsg] using hm
  | leaving =>
    simp only [Conn.step, hph]
    split
    · exact h
    · exact h.sub (fun m hm => hm) (fun n e hp => by cases hp)
  | working b =>
    simp only [Conn.step, hph]
    split
    · rename_i hr
      refine exits_hist h ?_ ?_
      · intro hs
        refine hw b hph _ (Or.inl ⟨hr, ?_⟩)
        split at hs
        · rename_i h1; exact Or.inl h1
        · exact Or.inr hs
      · intro hs
        refine hw b hph _ ?_
        rintro (⟨_, h1 | h1⟩ | ⟨e, h1, _⟩)
        · rw [if_pos h1] at hs; exact hs rfl
        · rw [if_neg (by rw [h1]; decide)] at hs; exact hs h1
        · rw [hr] at h1; cases h1
    · rename_i e hr
      split
      · rename_i hx
        have hbad : R b (fun b => ¬ EndsWell b) := by
          refine hw b hph _ ?_
          rintro (⟨h1, _⟩ | ⟨e', h1, h2, _⟩)
          · rw [hr] at h1; cases h1
          · rw [hr] at h1; cases h1; rw [hx] at h2; cases h2
        rcases send_cases k.tcp (.blockFailed b e) with ⟨e', c', g1, _, g3, _⟩ | ⟨g1, g2⟩
        · rw [g1]
          refine ⟨?_, ?_, fun n e hp => by cases hp; exact hbad⟩
          · intro n hm; exact h.well n (by simpa only [underway, g3] using hm)
          · intro n m hm; exact h.badly n m (by simpa only [underway, g3] using hm)
        · rw [g1]
          dsimp only
          have hund : ∀ ph, underway { k with
              tcp := { k.tcp with outbox := k.tcp.outbox ++ [.blockFailed b e] }, phase := ph } =
              underway k ++ [.blockFailed b k.worker] := by
            simp [underway, List.filterMap_append, Conn.toMsg]
          refine ⟨?_, ?_, fun n e hp => by cases hp; exact hbad⟩
          · intro n hm
            rw [hund, List.mem_append, List.mem_singleton] at hm
            rcases hm with hm | hm
            · exact h.well n hm
            · cases hm
          · intro n m hm hr
            rw [hund, List.mem_append, List.mem_singleton] at hm
            rcases hm with hm | rfl
            · exact h.badly n m hm hr
            · rcases hr with hr | ⟨_, w, hr⟩ <;> cases hr
              exact hbad
      · rename_i hx
        refine exits_hist h ?_ ?_
        · intro hs
          exact hw b hph _ (Or.inr ⟨e, hr, by simpa using hx, hs⟩)
        · intro hs
          refine hw b hph _ ?_
          rintro (⟨h1, _⟩ | ⟨e', _, _, h3⟩)
          · rw [hr] at h1; cases h1
          · exact hs h3
  | failing b e =>
    simp only [Conn.step, hph]
    exact exits_hist h (fun hs => by cases hs) (fun _ => h.failing b e hph)
  | ended e => simp only [Conn.step, hph]; exact h
  | killed => simp only [Conn.step, hph]; exact h

theorem has_step {k : Conn N T} {body : BodyEnd} {n : N} (hn : Has (k.step body) n) : Has k n := by
  have hex : ∀ {b : N} {st : StatusVal} {e : Option ClientErr}, Has (k.exits (Client.finish k.tcp b st e)) n →
      Has k n := by
    intro b st e hh
    unfold Client.finish at hh
    dsimp only at hh
    have hph : ∀ (r : Option ClientErr × TcpClient N T), r.2.inbox = k.tcp.inbox → Has (k.exits r) n → Has k n := by
      rintro ⟨_ | e, r⟩ hi (h1 | h1 | ⟨e', h1⟩) <;> dsimp only at hi
      · exact Or.inl (by simpa only [Conn.exits, unread, hi] using h1)
      · cases h1
      · cases h1
      · exact Or.inl (by simpa only [Conn.exits, unread, hi] using h1)
      · cases h1
      · cases h1
    rcases send_cases k.tcp (.release b (if st ≠ .enum .success then .enum .failed else st))
      with ⟨e', c', g1, g2, _⟩ | ⟨g1, _⟩
    · rw [g1] at hh; exact hph _ g2 hh
    · rw [g1] at hh; exact hph _ rfl hh
  have hov : ∀ {c' : TcpClient N T} {ph : Phase N}, c'.inbox = k.tcp.inbox → (∀ m, ph ≠ .working m) →
      (∀ m e, ph ≠ .failing m e) → Has { k with tcp := c', phase := ph } n → Has k n := by
    rintro c' ph hi h1 h2 (h3 | h3 | ⟨e, h3⟩)
    · exact Or.inl (by simpa only [unread, hi] using h3)
    · exact absurd h3 (h1 n)
    · exact absurd h3 (h2 n e)
  cases hph : k.phase with
  | idle =>
    simp only [Conn.step, hph] at hn
    rcases send_cases k.tcp (.acquire k.task) with ⟨e', c', g1, g2, _⟩ | ⟨g1, _⟩
    · rw [g1] at hn; exact hov g2 (by simp) (by simp) hn
    · rw [g1] at hn
      refine hov (c' := { k.tcp with outbox := k.tcp.outbox ++ [.acquire k.task] }) (ph := .waiting) rfl ?_ ?_ hn
      · intro m hm; cases hm
      · intro m e hm; cases hm
  | waiting =>
    simp only [Conn.step, hph] at hn
    rcases get_cases k.tcp with ⟨e', c', g1, g2, _⟩ | ⟨hc, ⟨_, g1⟩ | ⟨m, r, hi, g1⟩⟩
    · rw [g1] at hn
      have : ∀ o, Has { k with tcp := c', phase := .ended o } n → Has k n := fun o => hov g2 (by simp) (by simp)
      cases e' <;> exact this _ hn
    · rw [g1] at hn
      dsimp only at hn
      rw [← hph] at hn
      exact hn
    · rw [g1] at hn
      have hun : unread k = m :: unread { k with tcp := { k.tcp with inbox := r } } := by
        simp only [unread, hi]; rfl
      have hsub : ∀ x ∈ unread { k with tcp := { k.tcp with inbox := r } }, x ∈ unread k := by
        intro x hx; rw [hun]; exact List.mem_cons_of_mem _ hx
      cases m with
      | sendBlock b =>
        rcases hn with h1 | h1 | ⟨e, h1⟩
        · exact Or.inl (hsub _ h1)
        · cases h1; left; rw [hun]; exact List.mem_cons_self
        · cases h1
      | other =>
        rcases hn with h1 | h1 | ⟨e, h1⟩
        · exact Or.inl (hsub _ h1)
        · cases h1
        · cases h1
      | requestShutdown =>
        dsimp only at hn
        split at hn
        · rcases hn with h1 | h1 | ⟨e, h1⟩
          · exact Or.inl (hsub _ h1)
          · cases h1
          · cases h1
        · split at hn
          · rcases hn with h1 | h1 | ⟨e, h1⟩
            · exact Or.inl (hsub _ h1)
            · cases h1
            · cases h1
          · rcases hn with h1 | h1 | ⟨e, h1⟩
            · exact Or.inl (hsub _ h1)
            · cases h1
            · cases h1
  | leaving =>
    simp only [Conn.step, hph] at hn
    split at hn
    · exact hn
    · exact hov rfl (by simp) (by simp) hn
  | working b =>
    simp only [Conn.step, hph] at hn
    split at hn
    · exact hex hn
    · split at hn
      · rename_i e _ _
        have : ∀ c' o, c'.inbox = k.tcp.inbox → Has { k with tcp := c', phase := .failing b o } n → Has k n := by
          rintro c' o hi (h3 | h3 | ⟨e, h3⟩)
          · exact Or.inl (by simpa only [unread, hi] using h3)
          · cases h3
          · cases h3; exact Or.inr (Or.inl hph)
        rcases send_cases k.tcp (.blockFailed b e) with ⟨e', c', g1, g2, _⟩ | ⟨g1, _⟩
        · rw [g1] at hn; exact this _ _ g2 hn
        · rw [g1] at hn; exact this _ _ rfl hn
      · exact hex hn
  | failing b e =>
    simp only [Conn.step, hph] at hn
    exact hex hn
  | ended e => simp only [Conn.step, hph] at hn; exact hn
  | killed => simp only [Conn.step, hph] at hn; exact hn

/-- What the history says about blocks that were given back. -/
structure HistInv (g : DGraph N T K) (c : SysConf T) (es : List (ClEv N T S)) (x : Cluster N T K S) : Prop where
  conn : ∀ s k, x.conn s = some k → ConnHist (Ran g c es) k ∧ ∀ n, Has k n → .send s n ∈ x.sys.srv.out
  well : ∀ n s, (.release n .success, s) ∈ x.sys.queue → Ran g c es n EndsWell
  badly : ∀ n m s, (m, s) ∈ x.sys.queue → RelMsg n .failed m → Ran g c es n (fun b => ¬ EndsWell b)
  completed : ∀ n, .release n .success ∈ x.sys.srv.out → Ran g c es n EndsWell
  failed : ∀ n, .release n .failed ∈ x.sys.srv.out → Ran g c es n (fun b => ¬ EndsWell b) ∨
    ∃ s ∈ x.sys.closed, .send s n ∈ x.sys.srv.out

theorem ConnHist.mono {R R' : N → (BodyEnd → Prop) → Prop} {k : Conn N T} (h : ConnHist R k)
    (hR : ∀ n P, R n P → R' n P) : ConnHist R' k :=
  ⟨fun n hm => hR _ _ (h.well n hm), fun n m hm hr => hR _ _ (h.badly n m hm hr),
    fun n e hp => hR _ _ (h.failing n e hp)⟩

theorem HistInv.mono (h : HistInv g c es x) (e : ClEv N T S) : HistInv g c (es ++ [e]) x :=
  ⟨fun s k hk => ⟨(h.conn s k hk).1.mono (fun _ _ h => Ran.mono h e), (h.conn s k hk).2⟩,
    fun n s hm => Ran.mono (h.well n s hm) e, fun n m s hm hr => Ran.mono (h.badly n m s hm hr) e,
    fun n hm => Ran.mono (h.completed n hm) e,
    fun n hm => (h.failed n hm).imp (fun h => Ran.mono h e) id⟩

theorem HistInv.modify (h : HistInv g c es x) (s : S) (f : Conn N T → Conn N T)
    (hf : ∀ k, x.conn s = some k → ConnHist (Ran g c es) k → ConnHist (Ran g c es) (f k))
    (hf' : ∀ k, x.conn s = some k → ∀ n, Has (f k) n → Has k n) :
    HistInv g c es (x.modify s f) := by
  refine ⟨?_, h.well, h.badly, h.completed, h.failed⟩
  intro s' k hk
  by_cases hs : s' = s
  · subst hs
    simp only [Cluster.modify, upd, if_true] at hk
    obtain ⟨k0, h1, rfl⟩ := Option.map_eq_some_iff.1 hk
    obtain ⟨h2, h3⟩ := h.conn s' k0 h1
    exact ⟨hf k0 h1 h2, fun n hn => h3 n (hf' k0 h1 n hn)⟩
  · simp only [Cluster.modify, upd, hs, if_false] at hk
    exact h.conn s' k hk

theorem has_net {k : Conn N T} {e : NetEv N} {n : N} (he : ∀ m, e ≠ .arrives m)
    (hn : Has { k with tcp := k.tcp.net e } n) : Has k n := by
  have hi : (k.tcp.net e).inbox = k.tcp.inbox := by
    cases e with
    | arrives m => exact absurd rfl (he m)
    | ack => rfl
    | fails err => simp only [TcpClient.net]; split <;> rfl
    | writeFails => rfl
  rcases hn with h1 | h1
  · exact Or.inl (by simpa only [unread, hi] using h1)
  · exact Or.inr h1

theorem net_keeps_outbox (t : TcpClient N T) (e : NetEv N) : (t.net e).outbox = t.outbox := by
  cases e with
  | arrives m => simp only [TcpClient.net]; split <;> rfl
  | ack => rfl
  | fails err => simp only [TcpClient.net]; split <;> rfl
  | writeFails => rfl

theorem HistInv.loop (hg : g.Loose) (hi : ClInv g c x) (h : HistInv g c es x) {k : LoopEnv N T S}
    (hl : LegalCl c x (.sys (.loop k))) {z : Sys N T K S} (hz : x.sys.loop g c k = .ok z) :
    HistInv g c es ⟨z, Cluster.deliver x.sys x.conn (z.srv.out.drop x.sys.srv.out.length)⟩ := by
  obtain ⟨es', hrun⟩ := hi.run
  have hl' : LegalEv g c x.sys (.loop k) := ⟨hl.1, hl.2.1⟩
  obtain ⟨ks, hsrun⟩ := hrun.srun
  have hinv := hsrun.inv hg
  have hgt := goodTick_of hrun hl'
  have hit := loop_iteration hz
  obtain ⟨o, p, os, h1, tk, ho, ef, hh⟩ := iteration_effect hg hinv hgt hit
  obtain ⟨_, _, _, hcl, hq, _⟩ := loop_parts hz
  have hdrop : z.srv.out.drop x.sys.srv.out.length = os := by rw [ho, List.drop_left]
  rw [hdrop]
  have hsub : ∀ m, m ∈ x.sys.srv.out → m ∈ z.srv.out := by
    intro m hm; rw [ho]; exact List.mem_append_left _ hm
  have hqs : ∀ m, m ∈ z.queue → m ∈ x.sys.queue := by
    intro m hm
    rw [hq] at hm
    unfold Sys.recv at hm
    split at hm
    · exact hm
    · split at hm
      · cases hm
      · rename_i q e; rw [e]; exact List.mem_cons_of_mem _ hm
  have hrecv : ∀ m s, x.sys.recv.1 = .msg m s → (m, s) ∈ x.sys.queue := by
    intro m s hm
    unfold Sys.recv at hm
    split at hm
    · cases hm
    · split at hm
      · cases hm
      · rename_i q e; cases hm; rw [e]; exact List.mem_cons_self
  refine ⟨?_, fun n s hm => h.well n s (hqs _ hm), fun n m s hm => h.badly n m s (hqs _ hm), ?_, ?_⟩
  · intro s k' hk'
    obtain ⟨k0, h1, h2⟩ := Option.map_eq_some_iff.1 hk'
    obtain ⟨h3, h4⟩ := h.conn s k0 h1
    split at h2
    · subst h2
      exact ⟨h3, fun n hn => hsub _ (h4 n hn)⟩
    · subst h2
      refine ⟨h3.sub (fun m hm => hm) (fun n e hp => hp), ?_⟩
      rintro n (hn | hn)
      · simp only [unread, List.filterMap_append, ← List.append_assoc] at hn
        rcases List.mem_append.1 hn with hn | hn
        · exact hsub _ (h4 n (Or.inl hn))
        · obtain ⟨e, e1, e2⟩ := List.mem_filterMap.1 hn
          obtain ⟨o', e3, e4⟩ := List.mem_filterMap.1 e1
          dsimp only
          rw [ho]
          refine List.mem_append_right _ ?_
          cases o' with
          | send s' m =>
            simp only [downOf] at e4
            split_ifs at e4 with hs
            cases e4
            cases e2
            subst hs
            exact e3
          | shutdown s' t =>
            simp only [downOf] at e4
            split_ifs at e4 with hs
            cases e4
            cases e2
          | _ => cases e4
      · exact hsub _ (h4 n (Or.inr hn))
  · intro n hm
    rcases iteration_release hg hinv hgt hit hm with h1 | ⟨m, s, h1, h2, _⟩ | ⟨h1, _⟩
    · exact h.completed n h1
    · rcases h2 with rfl | ⟨h2, _⟩
      · exact h.well n s (hrecv _ _ h1)
      · cases h2
    · cases h1
  · intro n hm
    rcases iteration_release hg hinv hgt hit hm with h1 | ⟨m, s, h1, h2, _⟩ | ⟨_, s, h1, h2⟩
    · refine (h.failed n h1).imp id ?_
      rintro ⟨s, a, b⟩
      exact ⟨s, by dsimp only; rw [hcl]; exact List.mem_append_left _ a, hsub _ b⟩
    · exact Or.inl (h.badly n m s (hrecv _ _ h1) h2)
    · refine Or.inr ⟨s, ?_, h2⟩
      simp only [Sys.tickOf, decide_eq_true_eq] at h1
      dsimp only
      rw [hcl]
      exact h1

theorem ClRun.hist (hg : g.Loose) (h : ClRun g c es x) : HistInv g c es x := by
  induction h with
  | init h =>
    unfold Cluster.init at h
    split at h
    · cases h
    · next y hy =>
      cases h
      have hsrv : y.srv = Server.init g ∧ y.queue = [] := by
        unfold Sys.init at hy
        dsimp only at hy
        split at hy
        · cases hy
        · cases hy; exact ⟨rfl, rfl⟩
      have hout : ∀ n st, (.release n st) ∉ y.srv.out := by
        intro n st
        rw [hsrv.1, show (.release n st ∈ (Server.init g : Server N T K S).out) = _ from
          propext (frame_release (recruit_frame _))]
        simp
      refine ⟨fun s k hk => (by cases hk), ?_, ?_, fun n hn => absurd hn (hout n _), fun n hn => absurd hn (hout n _)⟩
      · intro n s hm; dsimp only at hm; rw [hsrv.2] at hm; cases hm
      · intro n m s hm; dsimp only at hm; rw [hsrv.2] at hm; cases hm
  | step e hrun hl hs ih =>
    have ih' := ih.mono e
    cases e with
    | connect s t w =>
      cases hs
      refine ⟨?_, ih'.well, ih'.badly, ih'.completed, ih'.failed⟩
      intro s' k hk
      by_cases hs' : s' = s
      · subst hs'
        simp only [upd, if_true] at hk
        cases hk
        refine ⟨⟨fun n hm => (by cases hm), fun n m hm => (by cases hm), fun n e hm => (by cases hm)⟩, ?_⟩
        rintro n (hn | hn | ⟨e, hn⟩) <;> cases hn
      · simp only [upd, hs', if_false] at hk
        exact ih'.conn s' k hk
    | client s body =>
      cases hs
      refine ih'.modify s _ (fun k hk hc => hc.step body ?_) (fun k hk n hn => has_step hn)
      intro n hp P hP
      exact ⟨_, s, body, [], _, rfl, hrun, ⟨k, hk, hp⟩, hP⟩
    | kill s =>
      cases hs
      refine ih'.modify s _ (fun k hk hc => hc.sub (fun m hm => hm) (fun n e hp => by cases hp)) ?_
      rintro k hk n (hn | hn | ⟨e, hn⟩)
      · exact Or.inl hn
      · cases hn
      · cases hn
    | up s =>
      cases hs
      unfold Cluster.up
      split
      · exact ih'
      · next k hk =>
        split
        · exact ih'
        · next m r ho =>
          obtain ⟨h1, h2⟩ := ih'.conn s k hk
          have hsub : ∀ m' ∈ underway { k with tcp := { k.tcp with outbox := r } }, m' ∈ underway k := by
            intro m' hm'
            obtain ⟨a, b1, b2⟩ := List.mem_filterMap.1 hm'
            exact List.mem_filterMap.2 ⟨a, by rw [ho]; exact List.mem_cons_of_mem _ b1, b2⟩
          dsimp only
          split
          · next m' hm =>
            have hmem : m' ∈ underway k := List.mem_filterMap.2 ⟨m, by rw [ho]; exact List.mem_cons_self, hm⟩
            refine ⟨?_, ?_, ?_, ih'.completed, ih'.failed⟩
            · intro s' k' hk'
              by_cases hs' : s' = s
              · subst hs'
                simp only [upd, if_true] at hk'
                cases hk'
                exact ⟨h1.sub hsub (fun n e hp => hp), h2⟩
              · simp only [upd, hs', if_false] at hk'
                exact ih'.conn s' k' hk'
            · intro n s' hmm
              rcases List.mem_append.1 hmm with hmm | hmm
              · exact ih'.well n s' hmm
              · cases List.mem_singleton.1 hmm
                exact h1.well n hmem
            · intro n m'' s' hmm hr
              rcases List.mem_append.1 hmm with hmm | hmm
              · exact ih'.badly n m'' s' hmm hr
              · cases List.mem_singleton.1 hmm
                exact h1.badly n m' hmem hr
          · refine ⟨?_, ih'.well, ih'.badly, ih'.completed, ih'.failed⟩
            intro s' k' hk'
            by_cases hs' : s' = s
            · subst hs'
              simp only [upd, if_true] at hk'
              cases hk'
              refine ⟨h1.sub hsub (fun n e hp => hp), ?_⟩
              rintro n (hn | hn)
              · refine h2 n (Or.inl ?_)
                simpa [unread, List.filterMap_append] using hn
              · exact h2 n (Or.inr hn)
            · simp only [upd, hs', if_false] at hk'
              exact ih'.conn s' k' hk'
    | down s =>
      cases hs
      refine ih'.modify s _ ?_ ?_
      · intro k hk hc
        unfold Cluster.recvDown
        split
        · exact hc
        · refine hc.sub ?_ (fun n e hp => hp)
          intro m hm; simpa only [underway, net_keeps_outbox] using hm
      · intro k hk n hn
        unfold Cluster.recvDown at hn
        split at hn
        · exact hn
        · rename_i e r hd
          rcases hn with hn | hn
          · left
            cases e with
            | arrives m =>
              simp only [unread, hd, TcpClient.net, List.filterMap_cons] at hn ⊢
              split at hn
              · simpa using hn
              · rcases List.mem_append.1 hn with hn | hn
                · exact List.mem_append_left _ hn
                · exact List.mem_append_right _ (List.mem_cons_of_mem _ hn)
            | ack => simpa [unread, hd, TcpClient.net] using hn
            | fails err =>
              simp only [unread, hd, TcpClient.net, List.filterMap_cons] at hn ⊢
              split at hn <;> exact hn
            | writeFails => simpa [unread, hd, TcpClient.net] using hn
          · exact Or.inr hn
    | breaks s e =>
      cases hs
      refine ih'.modify s _ ?_ ?_
      · intro k hk hc
        refine hc.sub ?_ (fun n e hp => hp)
        intro m hm; simpa only [underway, net_keeps_outbox] using hm
      · intro k hk n hn
        refine has_net ?_ hn
        intro m he
        rcases hl.2 with ⟨err, h1, _⟩ | h1 <;> rw [he] at h1 <;> cases h1
    | sys e =>
      have hnil : ∀ (x' : Sys N T K S) (conn : S → Option (Conn N T)) (l : List (Out N T S)),
          Cluster.deliver x' conn (l.drop l.length) = conn := by
        intro x' conn l
        funext s
        unfold Cluster.deliver
        rw [List.drop_length]
        rcases conn s with _ | k
        · rfl
        · simp
      cases e with
      | arrive m s => exact absurd hl id
      | close s =>
        simp only [Cluster.step, Sys.step] at hs
        cases hs
        rw [hnil]
        refine ⟨ih'.conn, ih'.well, ih'.badly, ih'.completed, ?_⟩
        intro n hn
        refine (ih'.failed n hn).imp id ?_
        rintro ⟨s', a, b⟩
        exact ⟨s', List.mem_append_left _ a, b⟩
      | proc p =>
        simp only [Cluster.step, Sys.step] at hs
        cases hs
        rw [hnil]
        exact ⟨ih'.conn, ih'.well, ih'.badly, ih'.completed, ih'.failed⟩
      | loop k =>
        simp only [Cluster.step] at hs
        split at hs
        · cases hs
        · next z hz => cases hs; exact ih'.loop hg (ClRun.inv hg hrun) hl hz

end Verif
