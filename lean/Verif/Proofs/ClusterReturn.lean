import Verif.Proofs.ClusterTime

/-! # Blocks are given back -/

set_option linter.unusedSectionVars false

namespace Verif

open Spec

variable {N T K S : Type} [DecidableEq N] [DecidableEq T] [DecidableEq K] [DecidableEq S]
  {g : DGraph N T K} {c : SysConf T} {cfg : SConf T} {x y : Cluster N T K S} {σ σ' : Server N T K S}
  {X : Nat → Cluster N T K S} {E : Nat → ClEv N T S}

/-- Who has a block has it until it is given back or lost. -/
theorem holder_iteration (hg : g.Loose) (h : SInv g σ) {k : Server.Tick N T S} (hk : GoodTick g cfg k)
    (he : σ.iteration g cfg k = .ok σ') {n : N} {s : S} (hn : holder σ.out n = some s) :
    holder σ'.out n = some s ∨ GivesBack k n s ∨ k.closed s = true := by
  obtain ⟨o, p, os, h1, tk, ho, ef, hh⟩ := iteration_effect hg h hk he
  have hfin : h1 n = some s → holder σ'.out n = some s ∨ GivesBack k n s ∨ k.closed s = true := by
    intro e
    rw [hh]
    split_ifs with hc
    · obtain ⟨s', e1, e2⟩ := hc
      rw [e] at e1
      cases e1
      exact Or.inr (Or.inr e2)
    · exact Or.inl e
  have hret : ∀ n' s', ReturnEffect n' s' p σ'.pending (holder σ.out) h1 os → ¬ (n' = n ∧ s' = s) → h1 n = some s := by
    rintro n' s' ⟨_, _, e⟩ hne
    rw [e]
    dsimp only
    rw [if_neg, hn]
    rintro ⟨rfl, e'⟩
    rw [hn] at e'
    cases e'
    exact hne ⟨rfl, rfl⟩
  rcases o with _ | ⟨m, s'⟩
  · exact hfin (by rw [ef.2.2, hn])
  · cases m with
    | acquire t =>
      refine hfin ?_
      rcases ef with ⟨n', _, _, _, _, e1, e2⟩ | ⟨_, _, e2⟩ | ⟨_, _, e2⟩
      · rw [e2]
        dsimp only
        rw [if_neg, hn]
        rintro rfl
        rw [hn] at e1; cases e1
      · rw [e2, hn]
      · rw [e2, hn]
    | release n' st =>
      by_cases hne : n' = n ∧ s' = s
      · obtain ⟨rfl, rfl⟩ := hne
        rcases takes_some tk with hr | hr
        · exact Or.inr (Or.inl (Or.inl ⟨st, hr⟩))
        · rw [hr] at tk; cases tk
      · exact hfin (hret n' s' ef hne)
    | blockFailed n' w =>
      by_cases hne : n' = n ∧ s' = s
      · obtain ⟨rfl, rfl⟩ := hne
        rcases takes_some tk with hr | hr
        · exact Or.inr (Or.inl (Or.inr ⟨w, hr⟩))
        · rw [hr] at tk; cases tk
      · exact hfin (hret n' s' ef hne)
    | clientException => exact absurd ef id
    | other => exact absurd ef id

/-! ### Single steps of clients -/

theorem exits_sends (k : Conn N T) (n : N) (st : StatusVal) (e : Option ClientErr) :
    (Phase.Over (k.exits (Client.finish k.tcp n st e)).phase ∨
      ∃ m ∈ underway (k.exits (Client.finish k.tcp n st e)), IsReturn n m) ∧
    (k.tcp.connected = false → Phase.Over (k.exits (Client.finish k.tcp n st e)).phase) := by
  unfold Client.finish
  dsimp only
  have hst : ∃ b : BlockStatus, (if st ≠ .enum .success then .enum .failed else st) = .enum b := by
    by_cases hs : st = .enum .success
    · exact ⟨.success, by rw [if_neg (not_not.2 hs), hs]⟩
    · exact ⟨.failed, by rw [if_pos hs]⟩
  obtain ⟨b, hb⟩ := hst
  rw [hb]
  rcases send_cases k.tcp (.release n (.enum b)) with ⟨e', c', h1, h2, h3, h4, h5, h6⟩ | ⟨h1, h2⟩
  · rw [h1]
    exact ⟨Or.inl trivial, fun _ => trivial⟩
  · rw [h1]
    refine ⟨Or.inr ⟨.release n b, ?_, rfl⟩, fun hc => by rw [h2] at hc; cases hc⟩
    cases e <;> simp [Conn.exits, underway, List.filterMap_append, Conn.toMsg]

theorem step_failing {k : Conn N T} {n : N} {e : Option ClientErr} (h : k.phase = .failing n e) (body : BodyEnd) :
    (Phase.Over (k.step body).phase ∨ ∃ m ∈ underway (k.step body), IsReturn n m) ∧
    (k.tcp.connected = false → Phase.Over (k.step body).phase) := by
  simp only [Conn.step, h]
  exact exits_sends k n _ e

theorem step_working {k : Conn N T} {n : N} (h : k.phase = .working n) (body : BodyEnd) :
    (Phase.Over (k.step body).phase ∨ (∃ m ∈ underway (k.step body), IsReturn n m) ∨
      ∃ e, (k.step body).phase = .failing n e) ∧
    (k.tcp.connected = false → Phase.Over (k.step body).phase ∨ ∃ e, (k.step body).phase = .failing n e) := by
  simp only [Conn.step, h]
  cases hb : body.raised with
  | none =>
    obtain ⟨h1, h2⟩ := exits_sends k n (if body.status = .enum .processing then .enum .success else body.status) none
    exact ⟨h1.imp_right Or.inl, fun hc => Or.inl (h2 hc)⟩
  | some e =>
    dsimp only
    split
    · rcases send_cases k.tcp (.blockFailed n e) with ⟨e', c', h1, h2, h3, h4, h5, h6⟩ | ⟨h1, h2⟩
      · rw [h1]; exact ⟨Or.inr (Or.inr ⟨_, rfl⟩), fun _ => Or.inr ⟨_, rfl⟩⟩
      · rw [h1]; exact ⟨Or.inr (Or.inr ⟨_, rfl⟩), fun _ => Or.inr ⟨_, rfl⟩⟩
    · obtain ⟨h1, h2⟩ := exits_sends k n body.status (some e)
      exact ⟨h1.imp_right Or.inl, fun hc => Or.inl (h2 hc)⟩

/-- A client without a connection ends. -/
theorem step_lost {k : Conn N T} (hc : k.tcp.connected = false) (hl : k.phase ≠ .leaving) (body : BodyEnd) :
    Phase.Over (k.step body).phase ∨ ∃ n e, (k.step body).phase = .failing n e := by
  cases hph : k.phase with
  | idle =>
    simp only [Conn.step, hph]
    rcases send_cases k.tcp (.acquire k.task) with ⟨e', c', h1, _⟩ | ⟨h1, h2⟩
    · rw [h1]; exact Or.inl trivial
    · rw [hc] at h2; cases h2
  | waiting =>
    simp only [Conn.step, hph]
    rcases get_cases k.tcp with ⟨e', c', h1, _⟩ | ⟨h1, _⟩
    · rw [h1]; cases e' <;> exact Or.inl trivial
    · rw [hc] at h1; cases h1
  | leaving => exact absurd hph hl
  | working n =>
    rcases (step_working hph body).2 hc with h1 | ⟨e, h1⟩
    · exact Or.inl h1
    · exact Or.inr ⟨n, e, h1⟩
  | failing n e => exact Or.inl ((step_failing hph body).2 hc)
  | ended e => left; simp only [Conn.step, hph]; trivial
  | killed => left; simp only [Conn.step, hph]; trivial

theorem exits_connected (k : Conn N T) (n : N) (st : StatusVal) (e : Option ClientErr) :
    (k.exits (Client.finish k.tcp n st e)).tcp.connected = k.tcp.connected := by
  unfold Client.finish
  dsimp only
  rcases send_cases k.tcp (.release n (if st ≠ .enum .success then .enum .failed else st)) with
    ⟨e', c', h1, h2, h3, h4, h5, h6⟩ | ⟨h1, h2⟩
  · rw [h1]; exact h4
  · rw [h1]; cases e <;> rfl

theorem step_connected (k : Conn N T) (body : BodyEnd) : (k.step body).tcp.connected = k.tcp.connected := by
  cases hph : k.phase with
  | idle =>
    simp only [Conn.step, hph]
    rcases send_cases k.tcp (.acquire k.task) with ⟨e', c', h1, h2, h3, h4, h5, h6⟩ | ⟨h1, h2⟩
    · rw [h1]; exact h4
    · rw [h1]
  | waiting =>
    simp only [Conn.step, hph]
    rcases get_cases k.tcp with ⟨e', c', h1, h2, h3, h4, h5, h6⟩ | ⟨hc, ⟨hi, h1⟩ | ⟨m, r, hi, h1⟩⟩
    · rw [h1]; cases e' <;> exact h4
    · rw [h1]
    · rw [h1]
      cases m with
      | requestShutdown => dsimp only; split; · rfl
                           split <;> rfl
      | _ => rfl
  | leaving => simp only [Conn.step, hph]; split <;> rfl
  | working n =>
    simp only [Conn.step, hph]
    cases hb : body.raised with
    | none => exact exits_connected _ _ _ _
    | some e =>
      dsimp only
      split
      · rcases send_cases k.tcp (.blockFailed n e) with ⟨e', c', h1, h2, h3, h4, h5, h6⟩ | ⟨h1, h2⟩
        · rw [h1]; exact h4
        · rw [h1]
      · exact exits_connected _ _ _ _
  | failing n e => simp only [Conn.step, hph]; exact exits_connected _ _ _ _
  | ended e => simp only [Conn.step, hph]
  | killed => simp only [Conn.step, hph]

theorem net_connected {t : TcpClient N T} (v : NetEv N) (h : t.connected = false) : (t.net v).connected = false := by
  cases v <;> simp [TcpClient.net, h]

theorem Eff.connected {s : S} {k k' : Conn N T} {e : ClEv N T S} (h : Eff g c x y s k e k')
    (hc : k.tcp.connected = false) : k'.tcp.connected = false := by
  cases h with
  | client body h1 h2 => rw [step_connected]; exact hc
  | breaks v h1 => exact net_connected v hc
  | down v r hd h1 => exact net_connected v hc
  | loop l os hl hz ho => split <;> exact hc
  | _ => exact hc

namespace Spec.ClForever

theorem lost_mono (h : ClForever g c X E) (hg : g.Loose) {i j : Nat} (hij : i ≤ j) {s : S} {k k' : Conn N T}
    (hk : (X i).conn s = some k) (hc : k.tcp.connected = false) (hk' : (X j).conn s = some k') :
    k'.tcp.connected = false := by
  obtain ⟨d, rfl⟩ := Nat.exists_eq_add_of_le hij
  clear hij
  induction d generalizing k' with
  | zero => rw [Nat.add_zero, hk] at hk'; cases hk'; exact hc
  | succ d ih =>
    obtain ⟨k1, hk1⟩ := h.conn_mono hg (j := i + d) (by omega) hk
    have := ih hk1
    cases hs : (X (i + d)).sys.srv.stop with
    | true =>
      rw [← Nat.add_assoc, h.stopped _ hs, hk1] at hk'
      cases hk'; exact this
    | false =>
      obtain ⟨k2, e1, e2⟩ := h.eff hg hs hk1
      rw [← Nat.add_assoc, e1] at hk'
      cases hk'
      exact e2.connected this

/-- Whoever has a block gives it back, or its stream is closed. -/
theorem returned (h : ClForever g c X E) (hg : g.Loose) (hf : ClFair g X E) {pk : Nat → Finset N → N} (hp : LegalPick pk)
    {i : Nat} {n : N} {s : S} (hn : holder (X i).sys.srv.out n = some s) :
    ∃ j, i ≤ j ∧ ((X j).sys.srv.stop = true ∨ GivesBack (tickAt pk (X j) (E j)) n s ∨
      (tickAt pk (X j) (E j)).closed s = true) := by
  by_contra hbad
  push Not at hbad
  have hF := h.forever hg hp
  have hrun : ∀ j, i ≤ j → (X j).sys.srv.stop = false := fun j hj => by
    simpa using (hbad j hj).1
  have hold : ∀ j, i ≤ j → holder (X j).sys.srv.out n = some s := by
    intro j hj
    obtain ⟨d, rfl⟩ := Nat.exists_eq_add_of_le hj
    clear hj
    induction d with
    | zero => exact hn
    | succ d ih =>
      obtain ⟨ks, hsr⟩ := hF.run (i + d)
      rcases holder_iteration hg (hsr.inv hg) (hF.good (i + d)) (hF.step (i + d) (hrun _ (by omega))) ih with h1 | h1 | h1
      · exact h1
      · exact absurd h1 (hbad _ (by omega)).2.1
      · exact absurd h1 (hbad _ (by omega)).2.2
  have hopen : ∀ j, i ≤ j → s ∉ (X j).sys.closed := by
    intro j hj hc
    obtain ⟨j', h1, h2⟩ := hf.idle j
    rcases h2 with h2 | ⟨l, h2, _⟩
    · exact (hbad j' (by omega)).1 h2
    · refine (hbad j' (by omega)).2.2 ?_
      rw [h2]
      simp only [tickAt, hrun j' (by omega)]
      exact decide_eq_true (List.mem_append_left _ (h.closed_mono h1 hc))
  have hconn : ∀ j, i ≤ j → ∃ k, (X j).conn s = some k := by
    intro j hj
    cases hk : (X j).conn s with
    | some k => exact ⟨k, rfl⟩
    | none => exact absurd (hold j hj) (((h.inv hg j).fresh s hk).2.2 n)
  have hbye : ∀ j, i ≤ j → ∀ k, (X j).conn s = some k → ¬ Parting k := by
    intro j hj k hk hpa
    exact ((h.bye hg j s k hk).calm (hopen j hj) hpa).2.1 n (hold j hj)
  have hover : ∀ j, i ≤ j → ∀ k, (X j).conn s = some k → ¬ Phase.Over k.phase := by
    intro j hj k hk ho
    obtain ⟨j', h1, h2⟩ := hf.noticed j s k hk ho
    rcases h2 with h2 | h2 | ⟨k', h2, h3⟩
    · exact (hbad j' (by omega)).1 h2
    · exact hopen j' (by omega) h2
    · exact hbye j' (by omega) k' h2 (Or.inr (Or.inr h3))
  have hnoret : ∀ j, i ≤ j → ∀ k, (X j).conn s = some k → ∀ m ∈ queued s (X j).sys.queue ++ underway k,
      ¬ IsReturn n m := by
    intro j hj k hk m hm hr
    obtain ⟨j', h1, h2⟩ := h.msg_read hg hf hk hm
    rcases h2 with h2 | h2 | h2
    · exact (hbad j' (by omega)).1 h2
    · exact hopen j' (by omega) h2
    · refine (hbad j' (by omega)).2.1 ?_
      have := h2.tick pk
      cases m with
      | release a st => cases hr; exact Or.inl ⟨st, this⟩
      | blockFailed a w => cases hr; exact Or.inr ⟨w, this⟩
      | _ => exact absurd hr id
  have hstep : ∀ j, i ≤ j → ∀ k, (X j).conn s = some k → ∃ j' k' body, j ≤ j' ∧ (X j').conn s = some k' ∧
      k'.phase = k.phase ∧ (X (j' + 1)).conn s = some (k'.step body) := by
    intro j hj k hk
    obtain ⟨j', h1, h2⟩ := h.next_step hg hf hk (hover j hj k hk)
    rcases h2 with h2 | h2 | ⟨h2, k', h3, h4, h5⟩
    · exact absurd h2 (hbad j' (by omega)).1
    · exact absurd h2 (hopen j' (by omega))
    · rcases h5 with h5 | ⟨body, _, h5⟩
      · obtain ⟨k2, e1, e2⟩ := h.eff hg h2 h3
        rw [h5] at e2
        cases e2 with
        | kill _ => exact absurd trivial (hover (j' + 1) (by omega) _ e1)
        | other _ _ _ _ _ _ _ h6 => exact absurd rfl h6
      · exact ⟨j', k', body, h1, h3, h4, h5⟩
  have hfail : ∀ j, i ≤ j → ∀ k e, (X j).conn s = some k → k.phase ≠ .failing n e := by
    intro j hj k e hk hph
    obtain ⟨j', k', body, h1, h2, h3, h4⟩ := hstep j hj k hk
    rcases (step_failing (h3.trans hph) body).1 with h5 | ⟨m, h5, h6⟩
    · exact hover _ (by omega) _ h4 h5
    · exact hnoret _ (by omega) _ h4 m (List.mem_append_right _ h5) h6
  have hlost : ∀ j, i ≤ j → ∀ k, (X j).conn s = some k → k.tcp.connected = true := by
    intro j hj k hk
    cases hc : k.tcp.connected with
    | true => rfl
    | false =>
      exfalso
      obtain ⟨j', k', body, h1, h2, h3, h4⟩ := hstep j hj k hk
      have hc' := h.lost_mono hg h1 hk hc h2
      rcases step_lost hc' (fun e => hbye j' (by omega) k' h2 (Or.inl e)) body with h5 | ⟨n', e, h5⟩
      · exact hover _ (by omega) _ h4 h5
      · obtain ⟨j2, k2, body2, g1, g2, g3, g4⟩ := hstep (j' + 1) (by omega) _ h4
        have hc2 := h.lost_mono hg (by omega) hk hc g2
        exact hover _ (by omega) _ g4 ((step_failing (g3.trans h5) body2).2 hc2)
  have hwork : ∀ j, i ≤ j → ∀ k, (X j).conn s = some k → k.phase ≠ .working n := by
    intro j hj k hk hph
    obtain ⟨j', k', body, h1, h2, h3, h4⟩ := hstep j hj k hk
    rcases (step_working (h3.trans hph) body).1 with h5 | ⟨m, h5, h6⟩ | ⟨e, h5⟩
    · exact hover _ (by omega) _ h4 h5
    · exact hnoret _ (by omega) _ h4 m (List.mem_append_right _ h5) h6
    · exact hfail _ (by omega) _ e h4 h5
  have hread : ∀ j, i ≤ j → ∀ k, (X j).conn s = some k → k.phase = .waiting ∧ unread k = [.sendBlock n] := by
    intro j hj k hk
    have hok := (h.inv hg j).conn s k hk
    have hun : ServerMsg.sendBlock n ∈ unread k := by
      rcases hok.held n (hold j hj) with h1 | h1
      · exact absurd h1 (hopen j hj)
      · rcases h1 with h1 | h1 | h1 | ⟨e, h1⟩ | h1 | ⟨m, h1, h2⟩
        · exact absurd h1 (hover j hj k hk)
        · rw [hlost j hj k hk] at h1; cases h1
        · exact absurd h1 (hwork j hj k hk)
        · exact absurd h1 (hfail j hj k e hk)
        · exact h1
        · exact absurd h2 (hnoret j hj k hk m h1)
    have ht := hok.talk (hopen j hj)
    unfold Talk at ht
    cases hph : k.phase with
    | idle => simp only [hph] at ht; rw [ht.2.2] at hun; cases hun
    | failing a b => simp only [hph] at ht; rw [ht.2.2] at hun; cases hun
    | working a => simp only [hph] at ht; rw [ht.2.2.1] at hun; cases hun
    | leaving => exact absurd (Or.inl hph) (hbye j hj k hk)
    | ended e => exact absurd (by rw [hph]; trivial) (hover j hj k hk)
    | killed => exact absurd (by rw [hph]; trivial) (hover j hj k hk)
    | waiting =>
      simp only [hph] at ht
      rcases ht with ⟨_, _, _, _, h1⟩ | ⟨_, _, h1⟩ | ⟨_, _, m, h1, _⟩ | ⟨_, _, _, h1⟩
      · rw [h1] at hun; cases hun
      · rw [h1] at hun; cases hun
      · rw [h1] at hun ⊢
        rw [List.mem_singleton] at hun
        exact ⟨rfl, by rw [hun]⟩
      · rw [h1] at hun; cases hun
  -- the message is not in the inbox
  have hinbox : ∀ j, i ≤ j → ∀ k, (X j).conn s = some k → k.tcp.inbox = [] := by
    intro j hj k hk
    by_contra hne
    obtain ⟨m, r, hin⟩ := List.exists_cons_of_ne_nil hne
    have hpers : ∀ j', j ≤ j' → (∃ k', (X j').conn s = some k' ∧ k'.tcp.inbox ≠ []) →
        (∃ body, E j' = .client s body) ∨ ∃ k', (X (j' + 1)).conn s = some k' ∧ k'.tcp.inbox ≠ [] := by
      rintro j' hj' ⟨k', h1, h2⟩
      obtain ⟨k2, e1, e2⟩ := h.eff hg (hrun j' (by omega)) h1
      have hnet : ∀ v, (k'.tcp.net v).inbox ≠ [] := by
        intro v
        cases v <;> simp only [TcpClient.net]
        · split
          · simp
          · exact h2
        · exact h2
        · split <;> exact h2
        · exact h2
      generalize hE : E j' = e at e2
      cases e2 with
      | client body => exact Or.inl ⟨body, rfl⟩
      | breaks v _ => exact Or.inr ⟨_, e1, hnet v⟩
      | down v r _ _ => exact Or.inr ⟨_, e1, hnet v⟩
      | loop l os hl hz ho => exact Or.inr ⟨_, e1, by split <;> exact h2⟩
      | _ => exact Or.inr ⟨_, e1, h2⟩
    have hgo : ∀ j', j ≤ j' → (∃ k', (X j').conn s = some k' ∧ k'.tcp.inbox ≠ []) →
        (∃ body, E j' = .client s body) → False := by
      rintro j' hj' ⟨k', h1, h2⟩ ⟨body, h3⟩
      obtain ⟨k2, e1, e2⟩ := h.eff hg (hrun j' (by omega)) h1
      rw [h3] at e2
      cases e2 with
      | other _ _ _ _ _ _ h5 => exact absurd rfl (h5 body)
      | client _ _ _ =>
        obtain ⟨a1, a2⟩ := hread j' (by omega) k' h1
        have hin' : k'.tcp.inbox = [.sendBlock n] := by
          unfold unread at a2
          obtain ⟨m', r', hin'⟩ := List.exists_cons_of_ne_nil h2
          rw [hin', List.cons_append, List.cons.injEq, List.append_eq_nil_iff] at a2
          rw [hin', a2.1, a2.2.1]
        have hph : (k'.step body).phase = .working n ∨ Phase.Over (k'.step body).phase := by
          simp only [Conn.step, a1]
          rcases get_cases k'.tcp with ⟨e', c', g1, _⟩ | ⟨_, ⟨g1, _⟩ | ⟨m', r', g1, g2⟩⟩
          · rw [g1]; cases e' <;> exact Or.inr trivial
          · exact absurd g1 h2
          · rw [hin'] at g1
            cases g1
            rw [g2]
            exact Or.inl rfl
        rcases hph with hph | hph
        · exact hwork _ (by omega) _ e1 hph
        · exact hover _ (by omega) _ e1 hph
    obtain ⟨j', h1, h2⟩ := hf.runs j s k hk (hover j hj k hk)
    rcases leads (P := fun j' => ∃ k', (X j').conn s = some k' ∧ k'.tcp.inbox ≠ [])
      (Q := fun j' => ∃ body, E j' = .client s body) ⟨k, hk, hne⟩ hpers j' h1 with ⟨j2, g1, _, g2, g3⟩ | g1
    · exact hgo j2 g1 g2 g3
    · rcases h2 with h2 | h2 | h2 | h2
      · exact (hbad j' (by omega)).1 h2
      · exact hopen j' (by omega) h2
      · exact hgo j' h1 g1 h2
      · obtain ⟨k', h3, _⟩ := g1
        obtain ⟨k2, e1, e2⟩ := h.eff hg (hrun j' (by omega)) h3
        rw [h2] at e2
        cases e2 with
        | kill _ => exact absurd trivial (hover (j' + 1) (by omega) _ e1)
        | other _ _ _ _ _ _ _ h6 => exact absurd rfl h6
  -- so it is on its way, but it arrives
  obtain ⟨k, hk⟩ := hconn i le_rfl
  have hdown : k.down ≠ [] := by
    intro hd
    have := (hread i le_rfl k hk).2
    unfold unread at this
    rw [hinbox i le_rfl k hk, hd] at this
    cases this
  obtain ⟨j, h1, h2⟩ := hf.received i s k hk hdown
  rcases h2 with h2 | h2 | ⟨k', h2, h3⟩ | h2
  · exact (hbad j h1).1 h2
  · exact hopen j h1 h2
  · exact hover j h1 k' h2 h3
  · obtain ⟨k', hk'⟩ := hconn j h1
    obtain ⟨k2, e1, e2⟩ := h.eff hg (hrun j h1) hk'
    have hin := hinbox _ (by omega) _ e1
    have hun := (hread _ (by omega) _ e1).2
    have hun' := (hread _ h1 _ hk').2
    have hin' := hinbox _ h1 _ hk'
    have hco := hlost _ h1 _ hk'
    rw [h2] at e2
    cases e2 with
    | down v r hd hsys =>
      unfold unread at hun hun'
      dsimp only at hin
      rw [hin] at hun
      rw [hin', hd] at hun'
      cases v with
      | arrives m => simp [TcpClient.net, hco] at hin
      | ack =>
        exact hbye j h1 k' hk' (Or.inr (Or.inr ((h.bye hg j s k' hk').ack (by rw [hd]; exact List.mem_cons_self))))
      | fails e =>
        rcases ((h.inv hg j).conn s k' hk').downs (.fails e) (by rw [hd]; exact List.mem_cons_self) with e' | ⟨m, e'⟩ <;>
          cases e'
      | writeFails =>
        rcases ((h.inv hg j).conn s k' hk').downs .writeFails (by rw [hd]; exact List.mem_cons_self) with e' | ⟨m, e'⟩ <;>
          cases e'
    | other _ _ _ _ _ _ _ _ _ h8 => exact absurd rfl h8

end Spec.ClForever

end Verif
