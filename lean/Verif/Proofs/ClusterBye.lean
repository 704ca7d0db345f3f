import Verif.Proofs.ClusterStep

/-! # Clients that have said goodbye -/

set_option linter.unusedSectionVars false

namespace Verif

open Spec

variable {N T K S : Type} [DecidableEq N] [DecidableEq T] [DecidableEq K] [DecidableEq S]
  {g : DGraph N T K} {c : SysConf T} {es : List (ClEv N T S)} {x y : Cluster N T K S}

/-- The client says goodbye or has done so. -/
def Parting (k : Conn N T) : Prop := k.phase = .leaving ∨ .disconnect ∈ k.tcp.outbox ∨ k.gone = true

/-- What holds when the client says goodbye, if its stream is open. -/
structure ByeOK (cl : Prop) (s : S) (k : Conn N T) (u : List (Msg N T)) (p : T → List S) (h : N → Option S) : Prop where
  ack : .ack ∈ k.down → k.gone = true
  phase : Parting k → k.phase = .leaving ∨ Phase.Over k.phase
  calm : ¬ cl → Parting k → u = [] ∧ (∀ n, h n ≠ some s) ∧ ∀ t, s ∉ p t

theorem send_outbox {c c' : TcpClient N T} {m : ClientMsg N T} (h : c.send m = .ok c') :
    c'.outbox = c.outbox ++ [m] := by
  rcases send_cases c m with ⟨e, c1, h1, _⟩ | ⟨h1, _⟩
  · rw [h1] at h; cases h
  · rw [h1] at h; cases h; rfl

/-- The end of the `with` statement. -/
theorem exits_parting {k : Conn N T} {n : N} {st : StatusVal} {e : Option ClientErr} (hp : ¬ Parting k) :
    (k.exits (Client.finish k.tcp n st e)).phase ≠ .leaving ∧
    .disconnect ∉ (k.exits (Client.finish k.tcp n st e)).tcp.outbox ∧
    (k.exits (Client.finish k.tcp n st e)).gone = k.gone ∧ (k.exits (Client.finish k.tcp n st e)).down = k.down := by
  have hd : .disconnect ∉ k.tcp.outbox := fun h => hp (Or.inr (Or.inl h))
  unfold Client.finish
  dsimp only
  rcases send_cases k.tcp (.release n (if st ≠ .enum .success then .enum .failed else st)) with
    ⟨e', c', h1, h2, h3, h4, h5, h6⟩ | ⟨h1, h2⟩
  · rw [h1]
    refine ⟨by simp [Conn.exits], ?_, rfl, rfl⟩
    simp only [Conn.exits, h3]
    exact hd
  · rw [h1]
    cases e <;> simp [Conn.exits, hd]

/-- Before the client says goodbye. -/
theorem step_parting {k : Conn N T} {body : BodyEnd} (hp : ¬ Parting k) :
    (k.step body).gone = k.gone ∧ (k.step body).down = k.down ∧
    (Parting (k.step body) → k.phase = .waiting ∧ (k.step body).phase = .leaving ∧
      ∃ r, k.tcp.connected = true ∧ k.tcp.inbox = .requestShutdown :: r) := by
  have hd : .disconnect ∉ k.tcp.outbox := fun h => hp (Or.inr (Or.inl h))
  have hg : ¬ k.gone = true := fun h => hp (Or.inr (Or.inr h))
  unfold Parting
  cases hph : k.phase with
  | idle =>
    simp only [Conn.step, hph]
    rcases send_cases k.tcp (.acquire k.task) with ⟨e', c', h1, h2, h3, h4, h5, h6⟩ | ⟨h1, h2⟩
    · rw [h1]; refine ⟨rfl, rfl, ?_⟩; rintro (h | h | h)
      · cases h
      · exact absurd (h3 ▸ h) hd
      · exact absurd h hg
    · rw [h1]; refine ⟨rfl, rfl, ?_⟩; rintro (h | h | h)
      · cases h
      · simp [hd] at h
      · exact absurd h hg
  | waiting =>
    simp only [Conn.step, hph]
    rcases get_cases k.tcp with ⟨e', c', h1, h2, h3, h4, h5, h6⟩ | ⟨hc, ⟨hi, h1⟩ | ⟨m, r, hi, h1⟩⟩
    · rw [h1]
      cases e' <;> refine ⟨rfl, rfl, ?_⟩ <;> rintro (h | h | h) <;>
        first | (cases h; done) | exact absurd h hg | (rw [← h3] at hd; exact absurd h hd)
    · rw [h1]
      refine ⟨rfl, rfl, ?_⟩
      rintro (h | h | h)
      · cases h
      · exact absurd h hd
      · exact absurd h hg
    · rw [h1]
      cases m with
      | other =>
        refine ⟨rfl, rfl, ?_⟩
        rintro (h | h | h)
        · cases h
        · exact absurd h hd
        · exact absurd h hg
      | sendBlock b =>
        refine ⟨rfl, rfl, ?_⟩
        rintro (h | h | h)
        · cases h
        · exact absurd h hd
        · exact absurd h hg
      | requestShutdown =>
        dsimp only
        rw [hc]
        simp only [Bool.not_true, Bool.false_eq_true, if_false]
        split
        · refine ⟨rfl, rfl, ?_⟩
          rintro (h | h | h)
          · cases h
          · exact absurd h hd
          · exact absurd h hg
        · exact ⟨rfl, rfl, fun _ => ⟨trivial, rfl, r, trivial, hi⟩⟩
  | leaving => exact absurd (Or.inl hph) hp
  | working n =>
    simp only [Conn.step, hph]
    have hx : ∀ st (e : Option ClientErr), (k.exits (Client.finish k.tcp n st e)).gone = k.gone ∧
        (k.exits (Client.finish k.tcp n st e)).down = k.down ∧
        ((k.exits (Client.finish k.tcp n st e)).phase = .leaving ∨
          .disconnect ∈ (k.exits (Client.finish k.tcp n st e)).tcp.outbox ∨
          (k.exits (Client.finish k.tcp n st e)).gone = true → False) := by
      intro st e
      obtain ⟨a1, a2, a3, a4⟩ := exits_parting (n := n) (st := st) (e := e) hp
      refine ⟨a3, a4, ?_⟩
      rintro (h | h | h)
      · exact a1 h
      · exact a2 h
      · rw [a3] at h; exact hg h
    cases hb : body.raised with
    | none =>
      obtain ⟨a1, a2, a3⟩ := hx (if body.status = .enum .processing then .enum .success else body.status) none
      exact ⟨a1, a2, fun h => absurd h a3⟩
    | some e =>
      dsimp only
      split
      · rcases send_cases k.tcp (.blockFailed n e) with ⟨e', c', h1, h2, h3, h4, h5, h6⟩ | ⟨h1, h2⟩
        · rw [h1]; refine ⟨rfl, rfl, ?_⟩; rintro (h | h | h)
          · cases h
          · exact absurd (h3 ▸ h) hd
          · exact absurd h hg
        · rw [h1]; refine ⟨rfl, rfl, ?_⟩; rintro (h | h | h)
          · cases h
          · simp [hd] at h
          · exact absurd h hg
      · obtain ⟨a1, a2, a3⟩ := hx body.status (some e)
        exact ⟨a1, a2, fun h => absurd h a3⟩
  | failing n e =>
    simp only [Conn.step, hph]
    obtain ⟨a1, a2, a3, a4⟩ := exits_parting (n := n) (st := .enum .failed) (e := e) hp
    refine ⟨a3, a4, ?_⟩
    rintro (h | h | h)
    · exact absurd h a1
    · exact absurd h a2
    · rw [a3] at h; exact absurd h hg
  | ended e =>
    simp only [Conn.step, hph]
    refine ⟨trivial, trivial, ?_⟩
    rintro (h | h | h)
    · cases h
    · exact absurd h hd
    · exact absurd h hg
  | killed =>
    simp only [Conn.step, hph]
    refine ⟨trivial, trivial, ?_⟩
    rintro (h | h | h)
    · cases h
    · exact absurd h hd
    · exact absurd h hg

/-- After the client has said goodbye. -/
theorem step_parted {k : Conn N T} {body : BodyEnd} (hp : k.phase = .leaving ∨ Phase.Over k.phase) :
    (k.step body = k ∨ k.phase = .leaving ∧ k.step body = { k with phase := .ended none }) := by
  rcases hp with hp | hp
  · simp only [Conn.step, hp]
    split
    · exact Or.inl rfl
    · exact Or.inr ⟨trivial, rfl⟩
  · cases hph : k.phase with
    | ended e => simp only [Conn.step, hph]; exact Or.inl trivial
    | killed => simp only [Conn.step, hph]; exact Or.inl trivial
    | _ => rw [hph] at hp; exact absurd hp id

/-- What holds of all connections. -/
def ByeInv (x : Cluster N T K S) : Prop :=
  ∀ s k, x.conn s = some k → ByeOK (s ∈ x.sys.closed) s k (queued s x.sys.queue ++ underway k) x.sys.srv.pending
    (holder x.sys.srv.out)

theorem net_frame (c : TcpClient N T) (v : NetEv N) : (c.net v).outbox = c.outbox := by
  cases v <;> simp only [TcpClient.net] <;> split <;> rfl

theorem downOf_ack {s : S} {os : List (Out N T S)} : (.ack : NetEv N) ∉ os.filterMap (downOf s) := by
  intro h
  obtain ⟨o, _, h⟩ := List.mem_filterMap.1 h
  cases o <;> simp only [downOf] at h <;> first | (split at h <;> cases h; done) | cases h

theorem ByeInv.eff (hg : g.Loose) (hi : ClInv g c x) {s : S} {k k' : Conn N T} {e : ClEv N T S} (hk : x.conn s = some k)
    (hb : ByeOK (s ∈ x.sys.closed) s k (queued s x.sys.queue ++ underway k) x.sys.srv.pending (holder x.sys.srv.out))
    (he : Eff g c x y s k e k') :
    ByeOK (s ∈ y.sys.closed) s k' (queued s y.sys.queue ++ underway k') y.sys.srv.pending (holder y.sys.srv.out) := by
  cases he with
  | client body h1 h2 =>
    rw [h1]
    by_cases hp : Parting k
    · rcases step_parted (body := body) (hb.phase hp) with e | ⟨e1, e⟩
      · rw [e]; exact hb
      · rw [e]
        exact ⟨hb.ack, fun _ => Or.inr trivial, fun hc _ => hb.calm hc hp⟩
    · obtain ⟨a1, a2, a3⟩ := step_parting (body := body) hp
      refine ⟨by rw [a1, a2]; exact hb.ack, fun h => Or.inl (a3 h).2.1, ?_⟩
      intro hc h
      obtain ⟨b1, b2, r, b3, b4⟩ := a3 h
      have hok := hi.conn s k hk
      have ht := hok.talk hc
      simp only [Talk, b1] at ht
      have hun : ServerMsg.requestShutdown ∈ unread k := by
        unfold unread
        rw [b4]
        simp
      have hund : underway (k.step body) = underway k := by
        simp only [Conn.step, b1]
        rcases get_cases k.tcp with ⟨e', c', h1, h2, h3, h4, h5, h6⟩ | ⟨hc', ⟨hi', h1⟩ | ⟨m, r', hi', h1⟩⟩
        · rw [h1]
          cases e' <;> simp only [underway, h3]
        · rw [h1]; rfl
        · rw [h1]
          rw [b4] at hi'
          cases hi'
          dsimp only
          rw [hc']
          simp only [Bool.not_true, Bool.false_eq_true, if_false]
          split
          · rfl
          · simp [underway, List.filterMap_append, Conn.toMsg]
      rw [hund]
      rcases ht with ⟨u', a1, a2, a3, a4⟩ | ⟨a1, a2, a3⟩ | ⟨a1, a2, m', a3, a4⟩ | ⟨a0, a1, a2, a3⟩
      · rw [a4] at hun; cases hun
      · rw [a3] at hun; cases hun
      · refine ⟨a1, ?_, ?_⟩
        · intro n hn
          rcases hok.held n hn with hc' | hw
          · exact hc hc'
          · rcases hw with hw | hw | hw | hw | hw | ⟨z, hz, hw⟩
            · rw [b1] at hw; exact hw
            · rw [b3] at hw; cases hw
            · rw [b1] at hw; cases hw
            · obtain ⟨_, hw⟩ := hw; rw [b1] at hw; cases hw
            · rw [a3] at hw hun
              rw [List.mem_singleton] at hw hun
              rw [← hun] at hw; cases hw
            · rw [a1] at hz; cases hz
        · intro t
          by_cases htk : t = k.task
          · rw [htk]; exact a2
          · exact hok.other t htk
      · rw [a3] at hun; cases hun
  | kill h1 =>
    rw [h1]
    refine ⟨hb.ack, fun _ => Or.inr trivial, ?_⟩
    rintro hc (h | h)
    · cases h
    · exact hb.calm hc (Or.inr h)
  | breaks v h1 =>
    rw [h1]
    have hu : underway { k with tcp := k.tcp.net v } = underway k := by simp only [underway, net_frame]
    have hp : Parting { k with tcp := k.tcp.net v } ↔ Parting k := by simp only [Parting, net_frame]
    rw [hu]
    exact ⟨hb.ack, fun h => hb.phase (hp.1 h), fun hc h => hb.calm hc (hp.1 h)⟩
  | down v r hd h1 =>
    rw [h1]
    have hu : underway { k with tcp := k.tcp.net v, down := r } = underway k := by simp only [underway, net_frame]
    have hp : Parting { k with tcp := k.tcp.net v, down := r } ↔ Parting k := by simp only [Parting, net_frame]
    rw [hu]
    exact ⟨fun h => hb.ack (by rw [hd]; exact List.mem_cons_of_mem _ h), fun h => hb.phase (hp.1 h),
      fun hc h => hb.calm hc (hp.1 h)⟩
  | up m m' r ho hm h1 =>
    rw [h1]
    have hu : underway k = m' :: underway { k with tcp := { k.tcp with outbox := r } } := by
      simp only [underway, ho, List.filterMap_cons, hm]
    have hp : Parting { k with tcp := { k.tcp with outbox := r } } → Parting k := by
      rintro (h | h | h)
      · exact Or.inl h
      · exact Or.inr (Or.inl (by rw [ho]; exact List.mem_cons_of_mem _ h))
      · exact Or.inr (Or.inr h)
    refine ⟨hb.ack, fun h => hb.phase (hp h), ?_⟩
    intro hc h
    have := (hb.calm hc (hp h)).1
    rw [hu] at this
    simp at this
  | bye r ho h1 =>
    rw [h1]
    have hp : Parting k := Or.inr (Or.inl (by rw [ho]; exact List.mem_cons_self))
    have hu : underway k = underway { k with
        tcp := { k.tcp with outbox := r }, down := k.down ++ [.ack], gone := true } := by
      simp only [underway, ho, List.filterMap_cons, Conn.toMsg]
    refine ⟨fun _ => rfl, fun _ => hb.phase hp, fun hc _ => ?_⟩
    rw [← hu]
    exact hb.calm hc hp
  | loop l os hl hz ho =>
    obtain ⟨os', h1, e1, e2, e3, e4⟩ := loop_view hg hi hl hz s
    have hos : os' = os := List.append_cancel_left (e1.symm.trans ho)
    subst hos
    obtain ⟨k', hk'⟩ : ∃ k', k' = (if s ∈ x.sys.closed then k else { k with down := k.down ++ os'.filterMap (downOf s) }) :=
      ⟨_, rfl⟩
    rw [← hk']
    have f1 : Parting k' ↔ Parting k := by rw [hk']; split <;> rfl
    have f2 : underway k' = underway k := by rw [hk']; split <;> rfl
    have f3 : k'.phase = k.phase := by rw [hk']; split <;> rfl
    have f4 : .ack ∈ k'.down → k'.gone = true := by
      rw [hk']
      split
      · exact hb.ack
      · intro h
        rcases List.mem_append.1 h with h | h
        · exact hb.ack h
        · exact absurd h downOf_ack
    refine ⟨f4, by rw [f1, f3]; exact hb.phase, ?_⟩
    intro hc hp
    rw [f1] at hp
    rw [f2]
    obtain ⟨u0, h0, p0⟩ := hb.calm (fun h => hc (e3 s h)) hp
    obtain ⟨q0, u0⟩ := List.append_eq_nil_iff.1 u0
    rcases e4 with ⟨m, q, _, hq, _⟩ | ⟨t, rest, hr, _⟩ | ⟨_, a1, a2, a3, a4⟩
    · rw [hq, queued_cons_self] at q0; cases q0
    · exact absurd (by rw [hr]; exact List.mem_cons_self) (p0 t)
    · refine ⟨by rw [a1, q0, u0]; rfl, ?_, ?_⟩
      · intro n hn
        rw [e2] at hn
        split_ifs at hn
        exact h0 n ((a2 n).1 hn)
      · intro t
        rw [← List.count_eq_zero, a3, List.count_eq_zero]
        exact p0 t
  | other _ q h1 h2 h3 h4 =>
    rw [h1, h2, queued_append, h3, List.append_nil]
    exact ⟨hb.ack, hb.phase, fun hc => hb.calm (fun h => hc (h4 _ h))⟩

theorem ClRun.bye (hg : g.Loose) (h : ClRun g c es x) : ByeInv x := by
  induction h with
  | init h =>
    intro s k hk
    unfold Cluster.init at h
    split at h
    · cases h
    · cases h; cases hk
  | @step es x y e hr hl hs ih =>
    have hi := ClRun.inv hg hr
    intro s k' hk'
    cases hk : x.conn s with
    | some k =>
      obtain ⟨k1, h1, h2⟩ := eff_of_step hg hi hl hs hk
      rw [h1] at hk'
      cases hk'
      exact ByeInv.eff hg hi hk (ih s k hk) h2
    | none =>
      obtain ⟨t, w, rfl⟩ := connect_of_none hs hk hk'
      have hl' := hl
      cases hs
      simp only [upd, if_true] at hk'
      cases hk'
      refine ⟨fun h => (by cases h), ?_, ?_⟩
      · rintro (h | h | h) <;> cases h
      · rintro _ (h | h | h) <;> cases h

end Verif
