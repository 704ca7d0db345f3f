import Verif.Proofs.Cluster
import Verif.Proofs.System

/-! # The conversation between the server and its clients, as the server and the network see it -/

set_option linter.unusedSectionVars false

namespace Verif

open Spec

variable {N T K S : Type} [DecidableEq N] [DecidableEq T] [DecidableEq K] [DecidableEq S]
  {g : DGraph N T K} {cfg : SConf T} {cl cl' : S → Prop} {s : S} {k k' : Conn N T} {u u' q : List (Msg N T)}
  {p p' : T → List S} {h h' : N → Option S}

/-- The connection changes without being noticed. -/
theorem ConnOK.weak (hk : ConnOK g cfg cl s k u p h) (h1 : k'.task = k.task) (h2 : k'.phase = k.phase)
    (h3 : unread k' = unread k) (h4 : k.tcp.connected = false → k'.tcp.connected = false)
    (h5 : .unexpectedMessage ∉ k'.tcp.excs) (h6 : ∀ e ∈ k'.down, e = .ack ∨ ∃ m, e = .arrives m) :
    ConnOK g cfg cl s k' u p h where
  task := h1 ▸ hk.task
  good := hk.good
  acq := h1 ▸ hk.acq
  downs := h6
  block := by rw [h3, h1]; exact hk.block
  working := by rw [h2, h1]; exact hk.working
  failing := by rw [h2, h1]; exact hk.failing
  other := by rw [h1]; exact hk.other
  calm := h2 ▸ hk.calm
  excs := h5
  talk hc := by
    have := hk.talk hc
    unfold Talk at this ⊢
    rw [h2, h1, h3]
    cases hp : k.phase <;> rw [hp] at this <;> dsimp only at this ⊢ <;> try exact this
    rcases this with a | a | a | ⟨a, b⟩
    · exact Or.inl a
    · exact Or.inr (Or.inl a)
    · exact Or.inr (Or.inr (Or.inl a))
    · exact Or.inr (Or.inr (Or.inr ⟨h4 a, b⟩))
  held n hn := by
    refine (hk.held n hn).imp_right ?_
    unfold Whereabouts
    rw [h2, h3]
    rintro (a | a | a)
    · exact Or.inl a
    · exact Or.inr (Or.inl (h4 a))
    · exact Or.inr (Or.inr a)

theorem ConnOK.kill (hk : ConnOK g cfg cl s k (q ++ underway k) p h) :
    ConnOK g cfg cl s { k with phase := .killed } (q ++ underway { k with phase := .killed }) p h :=
  hk.over rfl (fun _ hm => hm) rfl (fun _ hm => hm) (fun _ hm => hm) trivial (by intro hc; cases hc)

theorem ConnOK.breaks (hk : ConnOK g cfg cl s k (q ++ underway k) p h) {e : NetEv N}
    (he : (∃ err, e = .fails err ∧ err ≠ .unexpectedMessage) ∨ e = .writeFails) :
    ConnOK g cfg cl s { k with tcp := k.tcp.net e } (q ++ underway { k with tcp := k.tcp.net e }) p h := by
  have hu : underway { k with tcp := k.tcp.net e } = underway k := by
    rcases he with ⟨err, rfl, _⟩ | rfl
    · simp only [TcpClient.net]; split <;> rfl
    · rfl
  rw [hu]
  refine hk.weak rfl rfl ?_ ?_ ?_ hk.downs
  · rcases he with ⟨err, rfl, _⟩ | rfl
    · simp only [TcpClient.net]; split <;> rfl
    · rfl
  · intro hc
    rcases he with ⟨err, rfl, _⟩ | rfl
    · simp [TcpClient.net, hc]
    · exact hc
  · rcases he with ⟨err, rfl, hne⟩ | rfl
    · simp only [TcpClient.net]
      split
      · rw [List.mem_append, List.mem_singleton]
        rintro (hm | hm)
        · exact hk.excs hm
        · exact hne hm.symm
      · exact hk.excs
    · exact hk.excs

theorem ConnOK.down (hk : ConnOK g cfg cl s k (q ++ underway k) p h) :
    ConnOK g cfg cl s (Cluster.recvDown k) (q ++ underway (Cluster.recvDown k)) p h := by
  unfold Cluster.recvDown
  rcases hd : k.down with _ | ⟨e, r⟩
  · exact hk
  · dsimp only
    have hdr : ∀ e ∈ r, e = .ack ∨ ∃ m, e = .arrives m := fun e he =>
      hk.downs e (hd ▸ List.mem_cons_of_mem _ he)
    rcases hk.downs e (hd ▸ List.mem_cons_self) with rfl | ⟨m, rfl⟩
    · refine hk.weak rfl rfl ?_ (fun _ => rfl) hk.excs hdr
      simp only [unread, hd, TcpClient.net]; rfl
    · cases hc : k.tcp.connected with
      | true =>
        have hn : k.tcp.net (.arrives m) = { k.tcp with inbox := k.tcp.inbox ++ [m] } := by
          simp only [TcpClient.net, hc, if_true]
        rw [hn]
        refine hk.weak rfl rfl ?_ (fun h => h) hk.excs hdr
        simp only [unread, hd, List.filterMap_cons, List.append_assoc]; rfl
      | false =>
        have hn : k.tcp.net (.arrives m) = k.tcp := by
          simp only [TcpClient.net, hc]; rfl
        rw [hn]
        have hun : ∃ a b, unread k = a ++ m :: b ∧ unread { k with down := r } = a ++ b := by
          refine ⟨k.tcp.inbox, _, ?_, rfl⟩
          simp only [unread, hd, List.filterMap_cons]
        obtain ⟨a, b, e1, e2⟩ := hun
        have hne : unread k ≠ [] := by rw [e1]; simp
        have e3 : unread ({ k with tcp := k.tcp, down := r } : Conn N T) = a ++ b := e2
        refine ⟨hk.task, hk.good, hk.acq, hdr, ?_, hk.working, hk.failing, hk.other, hk.calm, hk.excs, ?_, ?_⟩
        · intro x hx
          rw [e3] at hx
          refine hk.block x ?_
          rw [e1]
          rcases List.mem_append.1 hx with hx | hx
          · exact List.mem_append_left _ hx
          · exact List.mem_append_right _ (List.mem_cons_of_mem _ hx)
        · intro hcl
          have := hk.talk hcl
          unfold Talk at this ⊢
          cases hp : k.phase <;> rw [hp] at this <;> dsimp only at this ⊢ <;> try trivial
          · exact absurd this.2.2 hne
          · rcases this with ⟨_, _, _, _, a4⟩ | ⟨_, _, a4⟩ | ⟨a1, a2, m', a3, _⟩ | ⟨_, _, _, a4⟩
            · exact absurd a4 hne
            · exact absurd a4 hne
            · refine Or.inr (Or.inr (Or.inr ⟨hc, a1, a2, ?_⟩))
              rw [hp] at e3
              rw [e3]
              rw [a3] at e1
              cases a with
              | nil => rw [List.nil_append] at e1; exact ((List.cons.inj e1).2).symm
              | cons y a =>
                have := (List.cons.inj e1).2
                simp at this
            · exact absurd a4 hne
          · exact absurd this.2.2.1 hne
          · exact absurd this.2.2 hne
        · intro n _
          exact Or.inr (Or.inr (Or.inl hc))

/-- A message gets from the outbox into the queue. -/
theorem ConnOK.up (hk : ConnOK g cfg cl s k (q ++ underway k) p h) {m : ClientMsg N T} {r : List (ClientMsg N T)}
    (ho : k.tcp.outbox = m :: r) {m' : Msg N T} (hm : Conn.toMsg k.worker m = some m') :
    GoodMsg g cfg m' ∧ ConnOK g cfg cl s { k with tcp := { k.tcp with outbox := r } }
      ((q ++ [m']) ++ underway { k with tcp := { k.tcp with outbox := r } }) p h := by
  have hu : underway k = m' :: underway { k with tcp := { k.tcp with outbox := r } } := by
    simp only [underway, ho, List.filterMap_cons, hm]
  have he : q ++ underway k = (q ++ [m']) ++ underway { k with tcp := { k.tcp with outbox := r } } := by
    rw [hu]; simp
  rw [← he]
  refine ⟨hk.good m' (by rw [hu]; simp), ?_⟩
  exact hk.weak rfl rfl rfl (fun h => h) hk.excs hk.downs

theorem ConnOK.goodbye (hk : ConnOK g cfg cl s k (q ++ underway k) p h) {m : ClientMsg N T}
    {r : List (ClientMsg N T)} (ho : k.tcp.outbox = m :: r) (hm : Conn.toMsg k.worker m = none) :
    ConnOK g cfg cl s { k with tcp := { k.tcp with outbox := r }, down := k.down ++ [.ack], gone := true }
      (q ++ underway { k with
        tcp := { k.tcp with outbox := r }, down := k.down ++ [.ack], gone := true }) p h := by
  have hu : underway k = underway { k with
      tcp := { k.tcp with outbox := r }, down := k.down ++ [.ack], gone := true } := by
    simp only [underway, ho, List.filterMap_cons, hm]
  rw [← hu]
  refine hk.weak rfl rfl ?_ (fun h => h) hk.excs ?_
  · simp [unread, List.filterMap_append]
  · intro e he
    rcases List.mem_append.1 he with he | he
    · exact hk.downs e he
    · exact Or.inl (List.mem_singleton.1 he)

/-! ### The server -/

/-- Something happens that does not concern client `s`. -/
theorem ConnOK.congr (hk : ConnOK g cfg cl s k u p h) (hp : ∀ t, (p' t).count s = (p t).count s)
    (hh : ∀ n, h' n = some s ↔ h n = some s) : ConnOK g cfg cl s k u p' h' := by
  have hmem : ∀ t, s ∈ p' t ↔ s ∈ p t := by
    intro t
    rw [← List.count_pos_iff, ← List.count_pos_iff, hp]
  refine ⟨hk.task, hk.good, hk.acq, hk.downs, hk.block, hk.working, hk.failing,
    fun t ht => by rw [hmem]; exact hk.other t ht, hk.calm, hk.excs, ?_, ?_⟩
  · intro hc
    have := hk.talk hc
    unfold Talk at this ⊢
    cases hp' : k.phase <;> rw [hp'] at this <;> dsimp only at this ⊢ <;> simp only [hmem, hp, hh] <;> exact this
  · intro n hn
    exact hk.held n ((hh n).1 hn)

/-- More streams are closed. -/
theorem ConnOK.mono (hk : ConnOK g cfg cl s k u p h) (hc : cl s → cl' s) : ConnOK g cfg cl' s k u p h :=
  ⟨hk.task, hk.good, hk.acq, hk.downs, hk.block, hk.working, hk.failing, hk.other, hk.calm, hk.excs,
    fun h => hk.talk (fun h' => h (hc h')), fun n hn => (hk.held n hn).imp_left hc⟩

/-- Blocks of clients whose streams are closed are taken back. -/
theorem ConnOK.lose (hk : ConnOK g cfg cl s k u p h)
    (hh : ∀ n, h' n = some s → h n = some s) (hh' : ¬ cl s → ∀ n, h n = some s → h' n = some s) :
    ConnOK g cfg cl s k u p h' := by
  refine ⟨hk.task, hk.good, hk.acq, hk.downs, hk.block, hk.working, hk.failing, hk.other, hk.calm, hk.excs, ?_,
    fun n hn => hk.held n (hh n hn)⟩
  intro hc
  have := hk.talk hc
  unfold Talk at this ⊢
  cases hp' : k.phase <;> rw [hp'] at this <;> dsimp only at this ⊢ <;> try exact this
  · rcases this with a | a | ⟨a1, a2, m, a3, a4⟩ | a
    · exact Or.inl a
    · exact Or.inr (Or.inl a)
    · exact Or.inr (Or.inr (Or.inl ⟨a1, a2, m, a3, fun n hn => hh' hc n (a4 n hn)⟩))
    · exact Or.inr (Or.inr (Or.inr a))
  · exact ⟨this.1, this.2.1, this.2.2.1, hh' hc _ this.2.2.2⟩

/-- A connection whose request the server has in its hands. -/
structure Taken (g : DGraph N T K) (cfg : SConf T) (cl : S → Prop) (s : S) (k : Conn N T) (u : List (Msg N T))
    (p : T → List S) (h : N → Option S) : Prop where
  task : k.task ∈ cfg.served
  good : ∀ m ∈ u, GoodMsg g cfg m
  acq : ∀ t, .acquire t ∈ u → t = k.task
  downs : ∀ e ∈ k.down, e = .ack ∨ ∃ m, e = .arrives m
  block : ∀ m ∈ unread k, m ≠ .other ∧ ∀ n, m = .sendBlock n → n ∈ g.nodes ∧ g.task n = k.task
  working : ∀ n, k.phase = .working n → n ∈ g.nodes ∧ g.task n = k.task
  failing : ∀ n e, k.phase = .failing n e → (n ∈ g.nodes ∧ g.task n = k.task) ∧ e ≠ some .unexpectedMessage
  other : ∀ t, t ≠ k.task → s ∉ p t
  calm : k.phase ≠ .ended (some .unexpectedMessage)
  excs : .unexpectedMessage ∉ k.tcp.excs
  talk : ¬ cl s → k.phase = .waiting ∧ u = [] ∧ s ∉ p k.task ∧ unread k = [] ∨ k.phase = .leaving ∨
    Phase.Over k.phase
  held : ∀ n, h n = some s → cl s ∨ Whereabouts k u n

/-- A request is taken out of the queue. -/
theorem ConnOK.takeMsg {t : T} (hk : ConnOK g cfg cl s k (.acquire t :: u) p h) :
    t = k.task ∧ Taken g cfg cl s k u p h := by
  refine ⟨hk.acq t List.mem_cons_self, hk.task, fun m hm => hk.good m (List.mem_cons_of_mem _ hm),
    fun m hm => hk.acq m (List.mem_cons_of_mem _ hm), hk.downs, hk.block,
    hk.working, hk.failing, hk.other, hk.calm, hk.excs, ?_, ?_⟩
  · intro hc
    have := hk.talk hc
    unfold Talk at this
    cases hp' : k.phase <;> rw [hp'] at this <;> dsimp only at this
    · exact absurd List.mem_cons_self (this.1 t)
    · rcases this with ⟨u', a1, a2, a3, a4⟩ | ⟨a1, _⟩ | ⟨a1, _⟩ | ⟨_, a1, _⟩
      · cases u' with
        | nil => exact Or.inl ⟨rfl, (List.cons.inj a1).2, a3, a4⟩
        | cons y u' =>
          rw [← (List.cons.inj a1).1] at a2
          exact absurd List.mem_cons_self (a2 t)
      · cases a1
      · cases a1
      · cases a1
    · exact Or.inr (Or.inl rfl)
    · cases this.1
    · exact absurd List.mem_cons_self (this.1 t)
    · exact Or.inr (Or.inr trivial)
    · exact Or.inr (Or.inr trivial)
  · intro n hn
    refine (hk.held n hn).imp_right ?_
    rintro (a | a | a | a | a | ⟨m, hm, a⟩)
    · exact Or.inl a
    · exact Or.inr (Or.inl a)
    · exact Or.inr (Or.inr (Or.inl a))
    · exact Or.inr (Or.inr (Or.inr (Or.inl a)))
    · exact Or.inr (Or.inr (Or.inr (Or.inr (Or.inl a))))
    · rcases List.mem_cons.1 hm with rfl | hm
      · exact absurd a id
      · exact Or.inr (Or.inr (Or.inr (Or.inr (Or.inr ⟨m, hm, a⟩))))

/-- A delayed request is taken out of its queue. -/
theorem ConnOK.takePending {t : T} {rest : List S} (hk : ConnOK g cfg cl s k u p h) (hp : p t = s :: rest) :
    t = k.task ∧ Taken g cfg cl s k u (upd p t rest) h := by
  have ht : t = k.task := by
    by_contra hne
    exact hk.other t hne (by rw [hp]; exact List.mem_cons_self)
  refine ⟨ht, hk.task, hk.good, hk.acq, hk.downs, hk.block, hk.working, hk.failing, ?_, hk.calm, hk.excs, ?_,
    hk.held⟩
  · intro t' ht'
    have : t' ≠ t := ht ▸ ht'
    simp only [upd, this, if_false]
    exact hk.other t' ht'
  · intro hc
    have := hk.talk hc
    have hmem : s ∈ p k.task := by rw [← ht, hp]; exact List.mem_cons_self
    unfold Talk at this
    cases hp' : k.phase <;> rw [hp'] at this <;> dsimp only at this
    · exact absurd hmem this.2.1
    · rcases this with ⟨u', a1, a2, a3, a4⟩ | ⟨a1, a2, a3⟩ | ⟨a1, a2, _⟩ | ⟨_, _, a2, _⟩
      · exact absurd hmem a3
      · refine Or.inl ⟨rfl, a1, ?_, a3⟩
        rw [← ht, hp, List.count_cons_self] at a2
        rw [← ht]
        simp only [upd, if_true]
        exact List.count_eq_zero.1 (by omega)
      · exact absurd hmem a2
      · exact absurd hmem a2
    · exact Or.inr (Or.inl rfl)
    · exact absurd hmem this.2.1
    · exact absurd hmem this.2.1
    · exact Or.inr (Or.inr trivial)
    · exact Or.inr (Or.inr trivial)

/-- The client gets an answer. -/
theorem Taken.answer (hk : Taken g cfg cl s k u p h) {m : ServerMsg N} (hm : m ≠ .other)
    (hn : ∀ n, m = .sendBlock n → n ∈ g.nodes ∧ g.task n = k.task ∧ h' n = some s)
    (hh : ∀ n, h' n = some s → m = .sendBlock n ∨ h n = some s) :
    ConnOK g cfg cl s { k with down := k.down ++ [.arrives m] } u p h' := by
  have hun : unread { k with down := k.down ++ [.arrives m] } = unread k ++ [m] := by
    simp [unread, List.filterMap_append]
  refine ⟨hk.task, hk.good, hk.acq, ?_, ?_, hk.working, hk.failing, hk.other, hk.calm, hk.excs, ?_, ?_⟩
  · intro e he
    rcases List.mem_append.1 he with he | he
    · exact hk.downs e he
    · exact Or.inr ⟨m, List.mem_singleton.1 he⟩
  · intro x hx
    rw [hun] at hx
    rcases List.mem_append.1 hx with hx | hx
    · exact hk.block x hx
    · rw [List.mem_singleton.1 hx]
      exact ⟨hm, fun n e => ⟨(hn n e).1, (hn n e).2.1⟩⟩
  · intro hc
    unfold Talk
    rcases hk.talk hc with ⟨a0, a1, a2, a3⟩ | a0 | a0
    · simp only [a0]
      rw [a3, a0] at hun
      exact Or.inr (Or.inr (Or.inl ⟨a1, a2, m, hun, fun n e => (hn n e).2.2⟩))
    · simp only [a0]
    · cases hp : k.phase <;> simp only [hp, Phase.Over] at a0 ⊢
  · intro n hn'
    rcases hh n hn' with rfl | hh
    · exact Or.inr (Or.inr (Or.inr (Or.inr (Or.inr (Or.inl (by rw [hun]; simp))))))
    · refine (hk.held n hh).imp_right ?_
      rintro (a | a | a | a | a | a)
      · exact Or.inl a
      · exact Or.inr (Or.inl a)
      · exact Or.inr (Or.inr (Or.inl a))
      · exact Or.inr (Or.inr (Or.inr (Or.inl a)))
      · exact Or.inr (Or.inr (Or.inr (Or.inr (Or.inl (by rw [hun]; exact List.mem_append_left _ a)))))
      · exact Or.inr (Or.inr (Or.inr (Or.inr (Or.inr a))))

/-- The answer gets lost because the stream is closed. -/
theorem Taken.lost (hk : Taken g cfg cl s k u p h) (hc : cl s) : ConnOK g cfg cl s k u p h' :=
  ⟨hk.task, hk.good, hk.acq, hk.downs, hk.block, hk.working, hk.failing, hk.other, hk.calm, hk.excs,
    fun h => absurd hc h, fun _ _ => Or.inl hc⟩

/-- The request is delayed. -/
theorem Taken.delay (hk : Taken g cfg cl s k u p h) :
    ConnOK g cfg cl s k u (upd p k.task (p k.task ++ [s])) h := by
  refine ⟨hk.task, hk.good, hk.acq, hk.downs, hk.block, hk.working, hk.failing, ?_, hk.calm, hk.excs, ?_, hk.held⟩
  · intro t ht
    simp only [upd, ht, if_false]
    exact hk.other t ht
  · intro hc
    unfold Talk
    rcases hk.talk hc with ⟨a0, a1, a2, a3⟩ | a0 | a0
    · simp only [a0]
      refine Or.inr (Or.inl ⟨a1, ?_, a3⟩)
      simp [upd, List.count_append, List.count_eq_zero.2 a2]
    · simp only [a0]
    · cases hp : k.phase <;> simp only [hp, Phase.Over] at a0 ⊢

/-- A block is given back. -/
theorem ConnOK.returned {m : Msg N T} {n : N} (hk : ConnOK g cfg cl s k (m :: u) p h) (hm : IsReturn n m) :
    ConnOK g cfg cl s k u p (fun x => if x = n ∧ h n = some s then none else h x) := by
  have hna : ∀ t, m ≠ .acquire t := by rintro t rfl; exact hm
  refine ⟨hk.task, fun m hm => hk.good m (List.mem_cons_of_mem _ hm),
    fun m hm => hk.acq m (List.mem_cons_of_mem _ hm), hk.downs, hk.block, hk.working, hk.failing, hk.other,
    hk.calm, hk.excs, ?_, ?_⟩
  · intro hc
    have := hk.talk hc
    have hsub : NoAcq (m :: u) → NoAcq u := fun h t ht => h t (List.mem_cons_of_mem _ ht)
    unfold Talk at this ⊢
    cases hp' : k.phase <;> rw [hp'] at this <;> dsimp only at this ⊢
    · exact ⟨hsub this.1, this.2⟩
    · rcases this with ⟨u', a1, a2, a3, a4⟩ | ⟨a1, _⟩ | ⟨a1, _⟩ | ⟨_, a1, _⟩
      · cases u' with
        | nil => exact absurd (List.cons.inj a1).1 (hna _)
        | cons y u' =>
          refine Or.inl ⟨u', (List.cons.inj a1).2, fun t ht => a2 t (List.mem_cons_of_mem _ ht), a3, a4⟩
      · cases a1
      · cases a1
      · cases a1
    · cases this.1
    · exact ⟨hsub this.1, this.2⟩
  · intro x hx
    split_ifs at hx with hxn
    have hne : x ≠ n := by
      rintro rfl
      exact hxn ⟨rfl, hx⟩
    refine (hk.held x hx).imp_right ?_
    rintro (a | a | a | a | a | ⟨y, hy, a⟩)
    · exact Or.inl a
    · exact Or.inr (Or.inl a)
    · exact Or.inr (Or.inr (Or.inl a))
    · exact Or.inr (Or.inr (Or.inr (Or.inl a)))
    · exact Or.inr (Or.inr (Or.inr (Or.inr (Or.inl a))))
    · rcases List.mem_cons.1 hy with rfl | hy
      · exfalso
        cases y with
        | release b st => exact hne (a.symm.trans hm)
        | blockFailed b w => exact hne (a.symm.trans hm)
        | acquire t => exact a
        | clientException => exact a
        | other => exact a
      · exact Or.inr (Or.inr (Or.inr (Or.inr (Or.inr ⟨y, hy, a⟩))))

end Verif
