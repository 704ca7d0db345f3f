import Verif.Proofs.Iteration
import Verif.Spec.ClusterSpec

/-! # The conversation between the server and its clients -/

set_option linter.unusedSectionVars false

namespace Verif

open Spec

variable {N T K S : Type} [DecidableEq N] [DecidableEq T] [DecidableEq K] [DecidableEq S]
  {g : DGraph N T K} {cfg : SConf T}

/-- Not a request for a block. -/
def NoAcq (l : List (Msg N T)) : Prop := ∀ t, .acquire t ∉ l

/-- Where the conversation with a client whose stream is open can be: `u` are its unhandled messages, `p` are the
delayed requests, `h` says who has which block. -/
def Talk (s : S) (k : Conn N T) (u : List (Msg N T)) (p : T → List S) (h : N → Option S) : Prop :=
  match k.phase with
  | .idle => NoAcq u ∧ s ∉ p k.task ∧ unread k = []
  | .failing _ _ => NoAcq u ∧ s ∉ p k.task ∧ unread k = []
  | .working n => u = [] ∧ s ∉ p k.task ∧ unread k = [] ∧ h n = some s
  | .waiting =>
    (∃ u', u = u' ++ [.acquire k.task] ∧ NoAcq u' ∧ s ∉ p k.task ∧ unread k = []) ∨
    (u = [] ∧ (p k.task).count s = 1 ∧ unread k = []) ∨
    (u = [] ∧ s ∉ p k.task ∧ ∃ m, unread k = [m] ∧ ∀ n, m = .sendBlock n → h n = some s) ∨
    (k.tcp.connected = false ∧ u = [] ∧ s ∉ p k.task ∧ unread k = [])
  | _ => True

/-- Where a block that client `s` has can be. -/
def Whereabouts (k : Conn N T) (u : List (Msg N T)) (n : N) : Prop :=
  Phase.Over k.phase ∨ k.tcp.connected = false ∨ k.phase = .working n ∨ (∃ e, k.phase = .failing n e) ∨
  .sendBlock n ∈ unread k ∨ ∃ m ∈ u, IsReturn n m

/-- What holds of every connection. -/
structure ConnOK (g : DGraph N T K) (cfg : SConf T) (cl : S → Prop) (s : S) (k : Conn N T) (u : List (Msg N T))
    (p : T → List S) (h : N → Option S) : Prop where
  task : k.task ∈ cfg.served
  good : ∀ m ∈ u, GoodMsg g cfg m
  acq : ∀ t, .acquire t ∈ u → t = k.task
  downs : ∀ e ∈ k.down, e = .ack ∨ ∃ m, e = .arrives m
  block : ∀ m ∈ unread k, m ≠ .other ∧ ∀ n, m = .sendBlock n → n ∈ g.nodes ∧ g.task n = k.task
  working : ∀ n, k.phase = .working n → n ∈ g.nodes ∧ g.task n = k.task
  failing : ∀ n e, k.phase = .failing n e → (n ∈ g.nodes ∧ g.task n = k.task) ∧ e ≠ some .unexpectedMessage
  other : ∀ t, t ≠ k.task → s ∉ p t
  calm : k.phase ≠ .ended (some .unexpectedMessage)
  excs : .unexpectedMessage ∉ k.tcp.excs
  talk : ¬ cl s → Talk s k u p h
  held : ∀ n, h n = some s → cl s ∨ Whereabouts k u n

/-! ### Steps of a client -/

/-- Sending fails, or the message is put into the outbox. -/
theorem send_cases (c : TcpClient N T) (m : ClientMsg N T) :
    (∃ e c', c.send m = .error (e, c') ∧ c'.inbox = c.inbox ∧ c'.outbox = c.outbox ∧ c'.connected = c.connected ∧
      (∀ x ∈ c'.excs, x ∈ c.excs) ∧ (e = .unexpectedMessage → .unexpectedMessage ∈ c.excs)) ∨
    (c.send m = .ok { c with outbox := c.outbox ++ [m] } ∧ c.connected = true) := by
  unfold TcpClient.send TcpClient.checkErrors
  rcases he : c.excs with _ | ⟨e, r⟩
  · dsimp only
    cases hc : c.connected with
    | false => exact Or.inl ⟨_, _, rfl, rfl, rfl, hc, by rw [he]; exact fun _ h => h, by intro h; cases h⟩
    | true =>
      cases hw : c.writable with
      | false => exact Or.inl ⟨_, _, rfl, rfl, rfl, hc, by rw [he]; exact fun _ h => h, by intro h; cases h⟩
      | true => exact Or.inr ⟨rfl, rfl⟩
  · exact Or.inl ⟨_, _, rfl, rfl, rfl, rfl, fun x hx => List.mem_cons_of_mem _ hx,
      by rintro rfl; exact List.mem_cons_self⟩

variable {cl : S → Prop} {s : S} {k k' : Conn N T} {u u' q : List (Msg N T)} {p : T → List S} {h : N → Option S}

/-- A process that has ended. -/
theorem ConnOK.over (hk : ConnOK g cfg cl s k u p h) (ht : k'.task = k.task) (hu : ∀ m ∈ u', m ∈ u)
    (hd : k'.down = k.down) (hr : ∀ m ∈ unread k', m ∈ unread k) (he : ∀ e ∈ k'.tcp.excs, e ∈ k.tcp.excs) (ho : Phase.Over k'.phase)
    (hc : k'.phase ≠ .ended (some .unexpectedMessage)) : ConnOK g cfg cl s k' u' p h where
  task := ht ▸ hk.task
  good m hm := hk.good m (hu m hm)
  acq t hm := by rw [ht]; exact hk.acq t (hu _ hm)
  downs := hd ▸ hk.downs
  block m hm := by rw [ht]; exact hk.block m (hr m hm)
  working n hn := by rw [hn] at ho; exact absurd ho id
  failing n e hn := by rw [hn] at ho; exact absurd ho id
  other t h1 := hk.other t (by rw [← ht]; exact h1)
  calm := hc
  excs h1 := hk.excs (he _ h1)
  talk _ := by
    unfold Talk
    cases hp : k'.phase <;> simp only [hp, Phase.Over] at ho ⊢
  held n _ := Or.inr (Or.inl ho)

/-- The end of the `with` statement. -/
theorem exits_ok (hk : ConnOK g cfg cl s k (q ++ underway k) p h) {n : N} {st : StatusVal} {e : Option ClientErr}
    (hn : n ∈ g.nodes) (hna : ¬ cl s → NoAcq (q ++ underway k) ∧ s ∉ p k.task ∧ unread k = [])
    (he : e ≠ some .unexpectedMessage)
    (hph : k.phase = .working n ∨ ∃ e, k.phase = .failing n e) :
    ConnOK g cfg cl s (k.exits (Client.finish k.tcp n st e))
      (q ++ underway (k.exits (Client.finish k.tcp n st e))) p h := by
  unfold Client.finish
  dsimp only
  have hst : ∃ b : BlockStatus, (b = .success ∨ b = .failed) ∧
      (if st ≠ .enum .success then .enum .failed else st) = .enum b := by
    by_cases hs : st = .enum .success
    · exact ⟨.success, Or.inl rfl, by rw [if_neg (not_not.2 hs), hs]⟩
    · exact ⟨.failed, Or.inr rfl, by rw [if_pos hs]⟩
  obtain ⟨b, hb, hbe⟩ := hst
  rw [hbe]
  rcases send_cases k.tcp (.release n (.enum b)) with ⟨e', c', h1, h2, h3, h4, h5, h6⟩ | ⟨h1, h2⟩
  · rw [h1]
    refine hk.over rfl ?_ rfl ?_ h5 trivial ?_
    · intro m hm; simpa only [Conn.exits, underway, h3] using hm
    · intro m hm; simpa only [Conn.exits, unread, h2] using hm
    · intro hc
      injection hc with hc
      injection hc with hc
      exact hk.excs (h6 hc)
  · rw [h1]
    have hund : underway { k with tcp := { k.tcp with outbox := k.tcp.outbox ++ [.release n (.enum b)] } } =
        underway k ++ [.release n b] := by
      simp [underway, List.filterMap_append, Conn.toMsg]
    have hgood : ∀ m ∈ q ++ (underway k ++ [.release n b]), GoodMsg g cfg m := by
      intro m hm
      rw [← List.append_assoc] at hm
      rcases List.mem_append.1 hm with hm | hm
      · exact hk.good m hm
      · rw [List.mem_singleton.1 hm]; exact ⟨hn, hb⟩
    have hacq : ∀ t, Msg.acquire t ∈ q ++ (underway k ++ [.release n b]) → t = k.task := by
      intro t hm
      rw [← List.append_assoc] at hm
      rcases List.mem_append.1 hm with hm | hm
      · exact hk.acq t hm
      · cases List.mem_singleton.1 hm
    cases e with
    | some e =>
      refine ⟨hk.task, ?_, fun t hm => hacq t (hund ▸ hm), hk.downs, hk.block, ?_, ?_, hk.other, ?_, hk.excs, fun _ => trivial,
        fun m _ => Or.inr (Or.inl trivial)⟩
      · intro m hm; exact hgood m (hund ▸ hm)
      · intro m hm; cases hm
      · intro m e hm; cases hm
      · intro hc; injection hc with hc; exact he hc
    | none =>
      refine ⟨hk.task, ?_, fun t hm => hacq t (hund ▸ hm), hk.downs, hk.block, ?_, ?_, hk.other, ?_, hk.excs, ?_, ?_⟩
      · intro m hm; exact hgood m (hund ▸ hm)
      · intro m hm; cases hm
      · intro m e hm; cases hm
      · intro hc; cases hc
      · intro hcl
        obtain ⟨a1, a2, a3⟩ := hna hcl
        refine ⟨?_, a2, a3⟩
        intro t ht
        have ht : Msg.acquire t ∈ q ++ (underway k ++ [.release n b]) := hund ▸ ht
        rw [← List.append_assoc] at ht
        rcases List.mem_append.1 ht with ht | ht
        · exact a1 t ht
        · cases List.mem_singleton.1 ht
      · intro m hm
        have hlast : Msg.release n b ∈ q ++ underway { k with
            tcp := { k.tcp with outbox := k.tcp.outbox ++ [.release n (.enum b)] } } := by rw [hund]; simp
        have hsub : ∀ x ∈ q ++ underway k, x ∈ q ++ underway { k with
            tcp := { k.tcp with outbox := k.tcp.outbox ++ [.release n (.enum b)] } } := by
          rw [hund]; intro x hx; rw [← List.append_assoc]; exact List.mem_append_left _ hx
        rcases hk.held m hm with hc | hw
        · exact Or.inl hc
        · rcases hw with hw | hw | hw | hw | hw | ⟨x, hx, hw⟩
          · exfalso
            rcases hph with hp | ⟨_, hp⟩ <;> rw [hp] at hw <;> exact hw
          · rw [h2] at hw; cases hw
          · rcases hph with hp | ⟨_, hp⟩
            · rw [hp] at hw; cases hw
              exact Or.inr (Or.inr (Or.inr (Or.inr (Or.inr (Or.inr ⟨_, hlast, rfl⟩)))))
            · rw [hp] at hw; cases hw
          · obtain ⟨e', hw⟩ := hw
            rcases hph with hp | ⟨_, hp⟩
            · rw [hp] at hw; cases hw
            · rw [hp] at hw; cases hw
              exact Or.inr (Or.inr (Or.inr (Or.inr (Or.inr (Or.inr ⟨_, hlast, rfl⟩)))))
          · exact Or.inr (Or.inr (Or.inr (Or.inr (Or.inr (Or.inl hw)))))
          · exact Or.inr (Or.inr (Or.inr (Or.inr (Or.inr (Or.inr ⟨x, hsub x hx, hw⟩)))))

/-- Reading a message. -/
theorem get_cases (c : TcpClient N T) :
    (∃ e c', c.getMessage = .error (e, c') ∧ c'.inbox = c.inbox ∧ c'.outbox = c.outbox ∧ c'.connected = c.connected ∧
      (∀ x ∈ c'.excs, x ∈ c.excs) ∧ (e = .unexpectedMessage → .unexpectedMessage ∈ c.excs)) ∨
    (c.connected = true ∧ ((c.inbox = [] ∧ c.getMessage = .ok (none, c)) ∨
      ∃ m r, c.inbox = m :: r ∧ c.getMessage = .ok (some m, { c with inbox := r }))) := by
  unfold TcpClient.getMessage TcpClient.checkErrors
  rcases he : c.excs with _ | ⟨e, r⟩
  · dsimp only
    cases hc : c.connected with
    | false => exact Or.inl ⟨_, _, rfl, rfl, rfl, hc, by rw [he]; exact fun _ h => h, by intro h; cases h⟩
    | true =>
      refine Or.inr ⟨rfl, ?_⟩
      rcases hi : c.inbox with _ | ⟨m, r⟩
      · exact Or.inl ⟨rfl, rfl⟩
      · exact Or.inr ⟨m, r, rfl, by simp⟩
  · exact Or.inl ⟨_, _, rfl, rfl, rfl, rfl, fun x hx => List.mem_cons_of_mem _ hx,
      by rintro rfl; exact List.mem_cons_self⟩

theorem ConnOK.step (hk : ConnOK g cfg cl s k (q ++ underway k) p h) (body : BodyEnd) :
    ConnOK g cfg cl s (k.step body) (q ++ underway (k.step body)) p h := by
  cases hph : k.phase with
  | idle =>
    have ht := hk.talk
    simp only [Talk, hph] at ht
    simp only [Conn.step, hph]
    rcases send_cases k.tcp (.acquire k.task) with ⟨e', c', h1, h2, h3, h4, h5, h6⟩ | ⟨h1, h2⟩
    · rw [h1]
      refine hk.over rfl ?_ rfl ?_ h5 trivial ?_
      · intro m hm; simpa only [underway, h3] using hm
      · intro m hm; simpa only [unread, h2] using hm
      · intro hc
        injection hc with hc
        injection hc with hc
        exact hk.excs (h6 hc)
    · rw [h1]
      dsimp only
      have hund : underway { k with
          tcp := { k.tcp with outbox := k.tcp.outbox ++ [.acquire k.task] }, phase := .waiting } =
          underway k ++ [.acquire k.task] := by
        simp [underway, List.filterMap_append, Conn.toMsg]
      refine ⟨hk.task, ?_, ?_, hk.downs, hk.block, ?_, ?_, hk.other, ?_, hk.excs, ?_, ?_⟩
      · intro m hm
        rw [hund, ← List.append_assoc] at hm
        rcases List.mem_append.1 hm with hm | hm
        · exact hk.good m hm
        · rw [List.mem_singleton.1 hm]; exact hk.task
      · intro t hm
        rw [hund, ← List.append_assoc] at hm
        rcases List.mem_append.1 hm with hm | hm
        · exact hk.acq t hm
        · cases List.mem_singleton.1 hm; rfl
      · intro m hm; cases hm
      · intro m e hm; cases hm
      · intro hc; cases hc
      · intro hcl
        obtain ⟨a1, a2, a3⟩ := ht hcl
        exact Or.inl ⟨q ++ underway k, by rw [hund, List.append_assoc], a1, a2, a3⟩
      · intro m hm
        rcases hk.held m hm with hc | hw
        · exact Or.inl hc
        · right
          rcases hw with hw | hw | hw | hw | hw | ⟨x, hx, hw⟩
          · rw [hph] at hw; exact absurd hw id
          · rw [h2] at hw; cases hw
          · rw [hph] at hw; cases hw
          · obtain ⟨e', hw⟩ := hw
            rw [hph] at hw; cases hw
          · exact Or.inr (Or.inr (Or.inr (Or.inr (Or.inl hw))))
          · refine Or.inr (Or.inr (Or.inr (Or.inr (Or.inr ⟨x, ?_, hw⟩))))
            rw [hund, ← List.append_assoc]
            exact List.mem_append_left _ hx
  | waiting =>
    have ht := hk.talk
    simp only [Talk, hph] at ht
    simp only [Conn.step, hph]
    rcases get_cases k.tcp with ⟨e', c', h1, h2, h3, h4, h5, h6⟩ | ⟨hc, ⟨hi, h1⟩ | ⟨m, r, hi, h1⟩⟩
    · rw [h1]
      have hov : ∀ o, o ≠ some .unexpectedMessage →
          ConnOK g cfg cl s { k with tcp := c', phase := .ended o }
            (q ++ underway { k with tcp := c', phase := .ended o }) p h := by
        intro o ho
        refine hk.over rfl ?_ rfl ?_ h5 trivial ?_
        · intro m hm; simpa only [underway, h3] using hm
        · intro m hm; simpa only [unread, h2] using hm
        · intro hc; injection hc with hc; exact ho hc
      cases e' <;> first
        | exact hov none (by simp)
        | exact hov _ (by intro hc; injection hc with hc; exact hk.excs (h6 hc))
    · rw [h1]
      dsimp only
      rw [← hph]
      exact hk
    · rw [h1]
      have hun : unread k = m :: unread { k with tcp := { k.tcp with inbox := r } } := by
        simp only [unread, hi]; rfl
      have hm := hk.block m (by rw [hun]; exact List.mem_cons_self)
      have hsub : ∀ x ∈ unread { k with tcp := { k.tcp with inbox := r } }, x ∈ unread k := by
        intro x hx; rw [hun]; exact List.mem_cons_of_mem _ hx
      have hw : ∀ n, h n = some s → ¬ cl s → (∃ n, m = .sendBlock n) ∨ unread k = [m] → m = .sendBlock n := by
        intro n hn hcl _
        rcases ht hcl with ⟨u', a1, a2, a3, a4⟩ | ⟨a1, a2, a3⟩ | ⟨a1, a2, m', a3, a4⟩ | ⟨a0, a1, a2, a3⟩
        · rw [a4] at hun; cases hun
        · rw [a3] at hun; cases hun
        · rcases hk.held n hn with hc | hw
          · exact absurd hc hcl
          · rcases hw with hw | hw | hw | hw | hw | ⟨x, hx, hw⟩
            · rw [hph] at hw; exact absurd hw id
            · rw [hc] at hw; cases hw
            · rw [hph] at hw; cases hw
            · obtain ⟨e', hw⟩ := hw
              rw [hph] at hw; cases hw
            · rw [a3] at hw hun
              rw [← (List.cons.inj hun).1]
              exact (List.mem_singleton.1 hw).symm
            · rw [a1] at hx; cases hx
        · rw [a0] at hc; cases hc
      cases m with
      | other => exact absurd rfl hm.1
      | sendBlock b =>
        dsimp only
        refine ⟨hk.task, hk.good, hk.acq, hk.downs, fun x hx => hk.block x (hsub x hx), ?_, ?_, hk.other, ?_, hk.excs, ?_, ?_⟩
        · intro n hn; cases hn; exact hm.2 b rfl
        · intro n e hn; cases hn
        · intro hc; cases hc
        · intro hcl
          rcases ht hcl with ⟨u', a1, a2, a3, a4⟩ | ⟨a1, a2, a3⟩ | ⟨a1, a2, m', a3, a4⟩ | ⟨a0, a1, a2, a3⟩
          · rw [a4] at hun; cases hun
          · rw [a3] at hun; cases hun
          · rw [a3] at hun
            obtain ⟨e1, e2⟩ := List.cons.inj hun
            exact ⟨a1, a2, e2.symm, a4 b e1⟩
          · rw [a0] at hc; cases hc
        · intro n hn
          by_cases hcl : cl s
          · exact Or.inl hcl
          · have := hw n hn hcl (Or.inl ⟨b, rfl⟩)
            cases this
            exact Or.inr (Or.inr (Or.inr (Or.inl rfl)))
      | requestShutdown =>
        dsimp only
        rw [hc]
        simp only [Bool.not_true, Bool.false_eq_true, if_false]
        split
        · refine hk.over rfl (fun x hx => hx) rfl hsub (fun x hx => hx) trivial ?_
          intro hc; cases hc
        · have hund : underway { k with tcp := { k.tcp with
              inbox := r, outbox := k.tcp.outbox ++ [.disconnect] }, phase := .leaving } = underway k := by
            simp [underway, List.filterMap_append, Conn.toMsg]
          refine ⟨hk.task, ?_, ?_, hk.downs, fun x hx => hk.block x (hsub x hx), ?_, ?_, hk.other, ?_, hk.excs,
            fun _ => trivial, ?_⟩
          · rw [← hc, hund]; exact hk.good
          · rw [← hc, hund]; exact hk.acq
          · intro n hn; cases hn
          · intro n e hn; cases hn
          · intro hc; cases hc
          · intro n hn
            by_cases hcl : cl s
            · exact Or.inl hcl
            · exfalso
              have := hw n hn hcl (Or.inr ?_)
              · cases this
              · rcases ht hcl with ⟨u', a1, a2, a3, a4⟩ | ⟨a1, a2, a3⟩ | ⟨a1, a2, m', a3, a4⟩ | ⟨a0, a1, a2, a3⟩
                · rw [a4] at hun; cases hun
                · rw [a3] at hun; cases hun
                · rw [a3] at hun ⊢
                  rw [(List.cons.inj hun).1]
                · rw [a0] at hc; cases hc
  | leaving =>
    simp only [Conn.step, hph]
    split
    · exact hk
    · refine hk.over rfl (fun x hx => hx) rfl (fun x hx => hx) (fun x hx => hx) trivial ?_
      intro hc; cases hc
  | working n =>
    have ht := hk.talk
    simp only [Talk, hph] at ht
    have hn := hk.working n hph
    simp only [Conn.step, hph]
    have hna : ¬ cl s → NoAcq (q ++ underway k) ∧ s ∉ p k.task ∧ unread k = [] := by
      intro hcl
      obtain ⟨a1, a2, a3, _⟩ := ht hcl
      refine ⟨?_, a2, a3⟩
      rw [a1]
      intro t ht; cases ht
    cases hb : body.raised with
    | none => exact exits_ok hk hn.1 hna (by simp) (Or.inl hph)
    | some e =>
      dsimp only
      split
      · rcases send_cases k.tcp (.blockFailed n e) with ⟨e', c', h1, h2, h3, h4, h5, h6⟩ | ⟨h1, h2⟩
        · rw [h1]
          dsimp only
          have hund : underway { k with tcp := c', phase := .failing n (some e') } = underway k := by
            simp only [underway, h3]
          have hunr : unread { k with tcp := c', phase := .failing n (some e') } = unread k := by
            simp only [unread, h2]
          refine ⟨hk.task, by rw [hund]; exact hk.good, by rw [hund]; exact hk.acq, hk.downs, by rw [hunr]; exact hk.block, ?_, ?_, hk.other, ?_,
            fun hx => hk.excs (h5 _ hx), ?_, ?_⟩
          · intro m hm; cases hm
          · intro m e hm
            cases hm
            refine ⟨hn, ?_⟩
            intro hc
            injection hc with hc
            exact hk.excs (h6 hc)
          · intro hc; cases hc
          · intro hcl
            obtain ⟨a1, a2, a3⟩ := hna hcl
            exact ⟨by rw [hund]; exact a1, a2, by rw [hunr]; exact a3⟩
          · intro m hm
            rcases hk.held m hm with hc | hw
            · exact Or.inl hc
            · right
              rcases hw with hw | hw | hw | hw | hw | ⟨x, hx, hw⟩
              · rw [hph] at hw; exact absurd hw id
              · exact Or.inr (Or.inl (h4.trans hw))
              · rw [hph] at hw; cases hw
                exact Or.inr (Or.inr (Or.inr (Or.inl ⟨_, rfl⟩)))
              · obtain ⟨e', hw⟩ := hw
                rw [hph] at hw; cases hw
              · exact Or.inr (Or.inr (Or.inr (Or.inr (Or.inl (hunr ▸ hw)))))
              · exact Or.inr (Or.inr (Or.inr (Or.inr (Or.inr ⟨x, by rw [hund]; exact hx, hw⟩))))
        · rw [h1]
          dsimp only
          have hund : underway { k with
              tcp := { k.tcp with outbox := k.tcp.outbox ++ [.blockFailed n e] }, phase := .failing n none } =
              underway k ++ [.blockFailed n k.worker] := by
            simp [underway, List.filterMap_append, Conn.toMsg]
          refine ⟨hk.task, ?_, ?_, hk.downs, hk.block, ?_, ?_, hk.other, ?_, hk.excs, ?_, ?_⟩
          · intro m hm
            rw [hund, ← List.append_assoc] at hm
            rcases List.mem_append.1 hm with hm | hm
            · exact hk.good m hm
            · rw [List.mem_singleton.1 hm]; exact hn.1
          · intro t hm
            rw [hund, ← List.append_assoc] at hm
            rcases List.mem_append.1 hm with hm | hm
            · exact hk.acq t hm
            · cases List.mem_singleton.1 hm
          · intro m hm; cases hm
          · intro m e hm
            cases hm
            exact ⟨hn, by simp⟩
          · intro hc; cases hc
          · intro hcl
            obtain ⟨a1, a2, a3⟩ := hna hcl
            refine ⟨?_, a2, a3⟩
            intro t ht
            rw [hund, ← List.append_assoc] at ht
            rcases List.mem_append.1 ht with ht | ht
            · exact a1 t ht
            · cases List.mem_singleton.1 ht
          · intro m hm
            rcases hk.held m hm with hc | hw
            · exact Or.inl hc
            · right
              rcases hw with hw | hw | hw | hw | hw | ⟨x, hx, hw⟩
              · rw [hph] at hw; exact absurd hw id
              · exact Or.inr (Or.inl hw)
              · rw [hph] at hw; cases hw
                exact Or.inr (Or.inr (Or.inr (Or.inl ⟨_, rfl⟩)))
              · obtain ⟨e', hw⟩ := hw
                rw [hph] at hw; cases hw
              · exact Or.inr (Or.inr (Or.inr (Or.inr (Or.inl hw))))
              · refine Or.inr (Or.inr (Or.inr (Or.inr (Or.inr ⟨x, ?_, hw⟩))))
                rw [hund, ← List.append_assoc]
                exact List.mem_append_left _ hx
      · rename_i hex
        refine exits_ok hk hn.1 hna ?_ (Or.inl hph)
        rintro ⟨⟩
        exact hex rfl
  | failing n e =>
    have ht := hk.talk
    simp only [Talk, hph] at ht
    obtain ⟨hn, he⟩ := hk.failing n e hph
    simp only [Conn.step, hph]
    exact exits_ok hk hn.1 ht he (Or.inr ⟨e, hph⟩)
  | ended e => simpa only [Conn.step, hph] using hk
  | killed => simpa only [Conn.step, hph] using hk

end Verif
