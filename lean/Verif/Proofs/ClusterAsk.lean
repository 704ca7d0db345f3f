import Verif.Proofs.ServerAsked

/-! # Clients that do not fail ask again -/

set_option linter.unusedSectionVars false

namespace Verif

open Spec

variable {N T K S : Type} [DecidableEq N] [DecidableEq T] [DecidableEq K] [DecidableEq S]
  {g : DGraph N T K} {c : SysConf T} {es : List (ClEv N T S)} {x y : Cluster N T K S}
  {X : Nat → Cluster N T K S} {E : Nat → ClEv N T S}

/-! ### Blocks and tasks -/

/-- Clients have blocks of their task only. -/
def HeldTask (g : DGraph N T K) (x : Cluster N T K S) : Prop :=
  ∀ s k n, x.conn s = some k → holder x.sys.srv.out n = some s → g.task n = k.task

theorem recv_mem {z : Sys N T K S} {m : Msg N T} {s : S} (h : z.recv.1 = .msg m s) :
    z.queue = (m, s) :: z.recv.2.1 := by
  unfold Sys.recv at h ⊢
  split at h
  · cases h
  · split at h
    · cases h
    · next hq => cases h; rw [if_neg (by assumption)]; exact hq

theorem HeldTask.step (hg : g.Loose) (hi : ClInv g c x) (h : HeldTask g x) {e : ClEv N T S} (hl : LegalCl c x e)
    (hs : x.step g c e = .ok y) : HeldTask g y := by
  intro s k n hk hn
  rcases hx : x.conn s with _ | k0
  · -- a new client
    have hf := hi.fresh s hx
    rcases step_server hl hs with ⟨l, he, hz⟩ | ⟨_, h1, _⟩
    · subst he
      obtain ⟨t, w, he⟩ := connect_of_none hs hx hk
      cases he
    · rw [h1] at hn
      exact absurd hn (hf.2.2 n)
  · obtain ⟨k1, e1, e2⟩ := eff_of_step hg hi hl hs hx
    rw [hk] at e1
    cases e1
    rw [e2.names.2]
    rcases step_server hl hs with ⟨l, he, hz⟩ | ⟨_, h1, _⟩
    · subst he
      obtain ⟨es, hr⟩ := hi.run
      obtain ⟨ks, hsr⟩ := hr.srun
      have hgt := goodTick_of hr ⟨hl.1, hl.2.1⟩
      obtain ⟨o, p, os, h1, tk, ho, ef, hh⟩ := iteration_effect hg (hsr.inv hg) hgt (loop_iteration hz)
      have hn1 : h1 n = some s := by
        rw [hh] at hn
        split_ifs at hn
        exact hn
      have hret : ∀ n' s', ReturnEffect n' s' p y.sys.srv.pending (holder x.sys.srv.out) h1 os →
          holder x.sys.srv.out n = some s := by
        rintro n' s' ⟨_, _, e⟩
        rw [e] at hn1
        dsimp only at hn1
        split_ifs at hn1
        exact hn1
      rcases o with _ | ⟨m, s'⟩
      · rw [ef.2.2] at hn1
        exact h s k0 n hx hn1
      · cases m with
        | acquire t =>
          rcases ef with ⟨n', _, ht, _, _, e1, e2⟩ | ⟨_, _, e2⟩ | ⟨_, _, e2⟩
          · rw [e2] at hn1
            dsimp only at hn1
            split_ifs at hn1 with hnn
            · subst hnn
              cases hn1
              rw [ht]
              have hok := hi.conn s k0 hx
              generalize ho : some (Msg.acquire t, s) = o at tk
              generalize hrr : (x.sys.tickOf l).recv = rr at tk
              cases tk with
              | msg m' s' =>
                cases ho
                have hrm := recv_mem hrr
                refine hok.acq t (List.mem_append_left _ (mem_queued.2 ?_))
                rw [hrm]
                exact List.mem_cons_self
              | closed => cases ho
              | idle => cases ho
              | again t' s' rest ht' hp =>
                cases ho
                by_contra hne
                exact hok.other t hne (by rw [hp]; exact List.mem_cons_self)
            · exact h s k0 n hx hn1
          · rw [e2] at hn1; exact h s k0 n hx hn1
          · rw [e2] at hn1; exact h s k0 n hx hn1
        | release n' st => exact h s k0 n hx (hret n' s' ef)
        | blockFailed n' w => exact h s k0 n hx (hret n' s' ef)
        | clientException => exact absurd ef id
        | other => exact absurd ef id
    · rw [h1] at hn
      exact h s k0 n hx hn

theorem ClRun.heldTask (hg : g.Loose) (h : ClRun g c es x) : HeldTask g x := by
  induction h with
  | init h =>
    intro s k n hk
    unfold Cluster.init at h
    split at h
    · cases h
    · cases h; cases hk
  | step e hr hl hs ih => exact ih.step hg (ClRun.inv hg hr) hl hs

/-! ### Clients that do not fail -/

/-- What holds of a client that does not fail. -/
structure Hale (k : Conn N T) : Prop where
  excs : k.tcp.excs = []
  writable : k.tcp.writable = true
  connected : k.tcp.connected = false → k.gone = true
  over : Phase.Over k.phase → k.gone = true
  failing : ∀ n e, k.phase = .failing n e → e = none

theorem send_fit {t : TcpClient N T} (h1 : t.excs = []) (h2 : t.writable = true) (h3 : t.connected = true)
    (m : ClientMsg N T) : t.send m = .ok { t with outbox := t.outbox ++ [m] } := by
  simp [TcpClient.send, TcpClient.checkErrors, h1, h2, h3]

theorem exits_fit {k : Conn N T} (h1 : k.tcp.excs = []) (h2 : k.tcp.writable = true) (h3 : k.tcp.connected = true)
    (n : N) (st : StatusVal) : ∃ o, k.exits (Client.finish k.tcp n st none) =
      { k with tcp := { k.tcp with outbox := o }, phase := .idle } := by
  unfold Client.finish
  dsimp only
  rw [send_fit h1 h2 h3]
  exact ⟨_, rfl⟩

/-- The next step of a client that does not fail. -/
theorem Hale.step {k : Conn N T} (h : Hale k) (hb : Parting k → k.phase = .leaving ∨ Phase.Over k.phase)
    (ho : ∀ m ∈ unread k, m ≠ .other) (hn : ¬ Phase.Over k.phase) {body : BodyEnd}
    (hx : ∀ n e, k.phase = .working n → body.raised = some e → e.isException = true) : Hale (k.step body) := by
  have hcon : k.phase ≠ .leaving → k.tcp.connected = true := by
    intro hl
    cases hc : k.tcp.connected with
    | true => rfl
    | false => exact absurd ((hb (Or.inr (Or.inr (h.connected hc)))).resolve_left hl) hn
  obtain ⟨h1, h2, h3, h4, h5⟩ := h
  cases hph : k.phase with
  | idle =>
    have hc := hcon (by rw [hph]; simp)
    simp only [Conn.step, hph, send_fit h1 h2 hc]
    exact ⟨h1, h2, h3, by simp [Phase.Over], by simp⟩
  | waiting =>
    have hc := hcon (by rw [hph]; simp)
    have he : k.tcp.getMessage = match k.tcp.inbox with
        | [] => .ok (none, k.tcp)
        | m :: r => .ok (some m, { k.tcp with inbox := r }) := by
      rcases hi : k.tcp.inbox with _ | ⟨m, r⟩ <;> simp [TcpClient.getMessage, TcpClient.checkErrors, h1, hc, hi]
    simp only [Conn.step, hph, he]
    rcases hi : k.tcp.inbox with _ | ⟨m, r⟩
    · exact ⟨h1, h2, h3, by simp [Phase.Over], by simp⟩
    · cases m with
      | other => exact absurd rfl (ho .other (by unfold unread; rw [hi]; simp))
      | sendBlock b => exact ⟨h1, h2, h3, by simp [Phase.Over], by simp⟩
      | requestShutdown =>
        dsimp only
        rw [hc, h2]
        simp only [Bool.not_true, Bool.false_eq_true, if_false]
        exact ⟨h1, rfl, fun h => by simp at h, by simp [Phase.Over], by simp⟩
  | leaving =>
    simp only [Conn.step, hph]
    split
    · exact ⟨h1, h2, h3, h4, h5⟩
    · next hc => exact ⟨h1, h2, h3, fun _ => h3 (by simpa using hc), by simp⟩
  | working n =>
    have hc := hcon (by rw [hph]; simp)
    simp only [Conn.step, hph]
    cases hr : body.raised with
    | none =>
      dsimp only
      obtain ⟨o, ho⟩ := exits_fit h1 h2 hc n (if body.status = .enum .processing then .enum .success else body.status)
      rw [ho]
      exact ⟨h1, h2, h3, by simp [Phase.Over], by simp⟩
    | some e =>
      simp only [hx n e hph hr, if_true, send_fit h1 h2 hc]
      exact ⟨h1, h2, h3, by simp [Phase.Over], by simp⟩
  | failing n e =>
    have hc := hcon (by rw [hph]; simp)
    obtain rfl := h5 n e hph
    simp only [Conn.step, hph]
    obtain ⟨o, ho⟩ := exits_fit h1 h2 hc n (.enum .failed)
    rw [ho]
    exact ⟨h1, h2, h3, by simp [Phase.Over], by simp⟩
  | ended e => rw [hph] at hn; exact absurd trivial hn
  | killed => rw [hph] at hn; exact absurd trivial hn

theorem Hale.eff {s : S} {k k' : Conn N T} {e : ClEv N T S} (h : Hale k) (hi : ClInv g c x) (hb : ByeInv x)
    (hk : x.conn s = some k) (hf : ¬ Fault x s e) (he : Eff g c x y s k e k') : Hale k' := by
  have hbk := hb s k hk
  have hok := hi.conn s k hk
  cases he with
  | client body h1 h2 =>
    refine h.step hbk.phase (fun m hm => (hok.block m hm).1) h2 ?_
    intro n e hph hr
    cases hx : e.isException with
    | true => rfl
    | false => exact absurd ⟨rfl, ⟨n, k, hk, hph⟩, e, hr, hx⟩ hf
  | kill h1 => exact absurd rfl hf
  | breaks v h1 => exact absurd rfl hf
  | down v r hd h1 =>
    obtain ⟨g1, g2, g3, g4, g5⟩ := h
    rcases hok.downs v (by rw [hd]; exact List.mem_cons_self) with rfl | ⟨m, rfl⟩
    · have := hbk.ack (by rw [hd]; exact List.mem_cons_self)
      exact ⟨g1, g2, fun _ => this, g4, g5⟩
    · simp only [TcpClient.net]
      split
      · exact ⟨g1, g2, g3, g4, g5⟩
      · exact ⟨g1, g2, g3, g4, g5⟩
  | up m m' r h1 h2 h3 => exact ⟨h.1, h.2, h.3, h.4, h.5⟩
  | bye r h1 h2 => exact ⟨h.1, h.2, fun _ => rfl, fun _ => rfl, h.5⟩
  | loop l os hl hz ho =>
    split
    · exact h
    · exact ⟨h.1, h.2, h.3, h.4, h.5⟩
  | other => exact h

/-- Streams are closed by failures only. -/
theorem closed_fault {e : ClEv N T S} (hl : LegalCl c x e) (hs : x.step g c e = .ok y) {s : S}
    (h : s ∈ y.sys.closed) : s ∈ x.sys.closed ∨ Fault x s e := by
  cases e with
  | connect s t w => cases hs; exact Or.inl h
  | client s b => cases hs; exact Or.inl h
  | kill s => cases hs; exact Or.inl h
  | breaks s v => cases hs; exact Or.inl h
  | down s => cases hs; exact Or.inl h
  | up s' => cases hs; rw [(up_sys x s').2.1] at h; exact Or.inl h
  | sys e =>
    cases e with
    | arrive m s => exact absurd hl id
    | close s' =>
      cases hs
      rcases List.mem_append.1 h with h | h
      · exact Or.inl h
      · exact Or.inr (List.mem_singleton.1 h).symm
    | proc p => cases hs; exact Or.inl h
    | loop l =>
      obtain ⟨_, _, _, hcl, _⟩ := loop_parts (step_sys hs)
      rw [hcl] at h
      rcases List.mem_append.1 h with h | h
      · exact Or.inl h
      · right
        simp only [List.mem_dedup, List.mem_filter] at h
        exact h.1

namespace Spec.ClForever

theorem task_const (h : ClForever g c X E) (hg : g.Loose) {i j : Nat} (hij : i ≤ j) {s : S} {k k' : Conn N T}
    (hk : (X i).conn s = some k) (hk' : (X j).conn s = some k') : k'.task = k.task := by
  obtain ⟨d, rfl⟩ := Nat.exists_eq_add_of_le hij
  clear hij
  induction d generalizing k' with
  | zero => rw [Nat.add_zero, hk] at hk'; cases hk'; rfl
  | succ d ih =>
    obtain ⟨k1, hk1⟩ := h.conn_mono hg (j := i + d) (by omega) hk
    have := ih hk1
    cases hs : (X (i + d)).sys.srv.stop with
    | true =>
      rw [← Nat.add_assoc, h.stopped _ hs, hk1] at hk'
      cases hk'; exact this
    | false =>
      obtain ⟨k2, e1, e2⟩ := h.eff hg hs hk1
      rw [← Nat.add_assoc, e1] at hk'
      cases hk'
      exact e2.names.2.trans this

/-- The stream of a client that does not fail is open, and the client is in good order. -/
theorem fit (h : ClForever g c X E) (hg : g.Loose) {s : S} (hr : Reliable X E s) (i : Nat) :
    s ∉ (X i).sys.closed ∧ ∀ k, (X i).conn s = some k → Hale k := by
  induction i with
  | zero =>
    have hi := h.init
    unfold Cluster.init at hi
    split at hi
    · cases hi
    · next y hy =>
      injection hi with hi
      rw [← hi]
      refine ⟨?_, fun k hk => by cases hk⟩
      unfold Sys.init at hy
      dsimp only at hy
      split at hy
      · cases hy
      · cases hy; simp
  | succ i ih =>
    cases hs : (X i).sys.srv.stop with
    | true => rw [h.stopped i hs]; exact ih
    | false =>
      have hnf := hr i hs
      refine ⟨fun hc => ?_, fun k hk => ?_⟩
      · rcases closed_fault (h.legal i hs) (h.step i hs) hc with h1 | h1
        · exact ih.1 h1
        · exact hnf h1
      · cases hx : (X i).conn s with
        | none =>
          obtain ⟨t, w, he⟩ := connect_of_none (h.step i hs) hx hk
          have hst := h.step i hs
          rw [he] at hst
          injection hst with hst
          rw [← hst] at hk
          simp only [upd, if_true] at hk
          cases hk
          exact ⟨rfl, rfl, (fun h => by cases h), (fun h => absurd h id), (fun n e h => by cases h)⟩
        | some k0 =>
          obtain ⟨k1, e1, e2⟩ := h.eff hg hs hx
          rw [hk] at e1
          cases e1
          exact (ih.2 k0 hx).eff (h.inv hg i) (h.bye hg i) hx hnf e2

/-- A client that does not fail asks for a block. -/
theorem asks (h : ClForever g c X E) (hg : g.Loose) (hf : ClFair g X E) {s : S} (hr : Reliable X E s) {i : Nat}
    {k : Conn N T} (hk : (X i).conn s = some k)
    (hc : .acquire k.task ∈ queued s (X i).sys.queue ++ underway k ∨ k.phase = .idle ∨ ∃ n e, k.phase = .failing n e) :
    ∃ j, i ≤ j ∧ ((X j).sys.srv.stop = true ∨ ReadsMsg X E j (.acquire k.task) s) := by
  have hread : ∀ i k, (X i).conn s = some k → .acquire k.task ∈ queued s (X i).sys.queue ++ underway k →
      ∃ j, i ≤ j ∧ ((X j).sys.srv.stop = true ∨ ReadsMsg X E j (.acquire k.task) s) := by
    intro i k hk hm
    obtain ⟨j, h1, h2⟩ := h.msg_read hg hf hk hm
    rcases h2 with h2 | h2 | h2
    · exact ⟨j, h1, Or.inl h2⟩
    · exact absurd h2 (h.fit hg hr j).1
    · exact ⟨j, h1, Or.inr h2⟩
  have hnext : ∀ i k, (X i).conn s = some k → (k.phase = .idle ∨ ∃ n e, k.phase = .failing n e) →
      ∃ j, i ≤ j ∧ ((X j).sys.srv.stop = true ∨ ∃ k' body, k'.phase = k.phase ∧ k'.task = k.task ∧ Hale k' ∧
        k'.tcp.connected = true ∧ (X (j + 1)).conn s = some (k'.step body)) := by
    intro i k hk hph
    have hno : ¬ Phase.Over k.phase := by
      rcases hph with hph | ⟨n, e, hph⟩ <;> rw [hph] <;> exact id
    obtain ⟨j, h1, h2⟩ := h.next_step hg hf hk hno
    refine ⟨j, h1, ?_⟩
    rcases h2 with h2 | h2 | ⟨h2, k', h3, h4, h5⟩
    · exact Or.inl h2
    · exact absurd h2 (h.fit hg hr j).1
    · rcases h5 with h5 | ⟨body, h5, h6⟩
      · exact absurd (by rw [h5]; rfl) (hr j h2)
      · have hh := (h.fit hg hr j).2 k' h3
        refine Or.inr ⟨k', body, h4, h.task_const hg h1 hk h3, hh, ?_, h6⟩
        cases hcn : k'.tcp.connected with
        | true => rfl
        | false =>
          rcases (h.bye hg j s k' h3).phase (Or.inr (Or.inr (hh.connected hcn))) with h7 | h7
          · rw [h4] at h7
            rcases hph with hph | ⟨n, e, hph⟩ <;> rw [hph] at h7 <;> cases h7
          · rw [h4] at h7; exact absurd h7 hno
  have hidle : ∀ i k, (X i).conn s = some k → k.phase = .idle →
      ∃ j, i ≤ j ∧ ((X j).sys.srv.stop = true ∨ ReadsMsg X E j (.acquire k.task) s) := by
    intro i k hk hph
    obtain ⟨j, h1, h2⟩ := hnext i k hk (Or.inl hph)
    rcases h2 with h2 | ⟨k', body, h3, h4, hh, h5, h6⟩
    · exact ⟨j, h1, Or.inl h2⟩
    · have hst : k'.step body = { k' with
          tcp := { k'.tcp with outbox := k'.tcp.outbox ++ [.acquire k'.task] }, phase := .waiting } := by
        simp only [Conn.step, h3.trans hph, send_fit hh.excs hh.writable h5]
      rw [hst] at h6
      obtain ⟨j', g1, g2⟩ := hread (j + 1) _ h6 (List.mem_append_right _ (by
        simp [underway, List.filterMap_append, Conn.toMsg]))
      rw [← h4]
      exact ⟨j', by omega, g2⟩
  rcases hc with hc | hc | ⟨n, e, hc⟩
  · exact hread i k hk hc
  · exact hidle i k hk hc
  · obtain ⟨j, h1, h2⟩ := hnext i k hk (Or.inr ⟨n, e, hc⟩)
    rcases h2 with h2 | ⟨k', body, h3, h4, hh, h5, h6⟩
    · exact ⟨j, h1, Or.inl h2⟩
    · obtain rfl := hh.failing n e (h3.trans hc)
      obtain ⟨o, ho⟩ := exits_fit hh.excs hh.writable h5 n (.enum .failed)
      have hst : k'.step body = { k' with tcp := { k'.tcp with outbox := o }, phase := .idle } := by
        simp only [Conn.step, h3.trans hc, ho]
      rw [hst] at h6
      obtain ⟨j', g1, g2⟩ := hidle (j + 1) _ h6 rfl
      rw [← h4]
      exact ⟨j', by omega, g2⟩

/-- A new client that does not fail asks for a block. -/
theorem joined (h : ClForever g c X E) (hg : g.Loose) (hf : ClFair g X E) {t : T} {i : Nat} (hj : Joins X E t i) :
    ∃ j, i ≤ j ∧ ((X j).sys.srv.stop = true ∨ ∃ s, ReadsMsg X E j (.acquire t) s) := by
  obtain ⟨s, w, he, hr⟩ := hj
  cases hs : (X i).sys.srv.stop with
  | true => exact ⟨i, le_rfl, Or.inl hs⟩
  | false =>
    have hst := h.step i hs
    rw [he] at hst
    injection hst with hst
    have hk : (X (i + 1)).conn s = some (Conn.new t w) := by
      rw [← hst]
      simp only [upd, if_true]
    obtain ⟨j, h1, h2⟩ := h.asks hg hf hr hk (Or.inr (Or.inl rfl))
    exact ⟨j, by omega, h2.imp_right (fun h => ⟨s, h⟩)⟩

end Spec.ClForever

theorem hands_le (os : List (Out N T S)) (n : N) :
    (evs os).count (.hand n) ≤ (os.filterMap ansOf).countP (fun a => decide (a.2 = some n)) := by
  induction os with
  | nil => simp [evs]
  | cons o os ih =>
    unfold evs at ih ⊢
    cases o with
    | send s m =>
      simp only [List.filterMap_cons, toEv, ansOf, List.count_cons, List.countP_cons]
      by_cases hm : m = n
      · subst hm; simpa using ih
      · simpa [hm] using ih
    | shutdown s t => simpa [toEv, ansOf, List.filterMap_cons] using ih
    | release m st => cases st <;> simpa [toEv, ansOf, List.filterMap_cons] using ih
    | _ => simpa [toEv, ansOf, List.filterMap_cons] using ih

/-- Blocks are taken back only if they are given back or lost. -/
theorem release_back {σ σ' : Server N T K S} {cfg : SConf T} {ks : List (Server.Tick N T S)} (hg : g.Loose)
    (hr : SRun g cfg ks σ) (hs : σ.stop = false) {k : Server.Tick N T S} (hk : GoodTick g cfg k)
    (he : σ.iteration g cfg k = .ok σ') {n : N} {os : List (Out N T S)}
    {st : BlockStatus} (ho : σ'.out = σ.out ++ os) (hst : .release n st ∈ os) :
    (∀ s, holder σ.out n = some s → GivesBack k n s ∨ k.closed s = true) ∧
    (holder σ.out n = none → ∃ s, k.closed s = true) := by
  have hi := hr.inv hg
  have hr' : SRun g cfg (ks ++ [k]) σ' := SRun.step k hr hs hk he
  have hi' := hr'.inv hg
  obtain ⟨o, p, os', h2, tk, ho', ef, hh⟩ := iteration_effect hg hi hk he
  obtain rfl : os' = os := List.append_cancel_left (ho'.symm.trans ho)
  have hb := (hi.run.facts hg).bal n
  have hb' := (hi'.run.facts hg).bal n
  rw [ho, evs_append] at hb'
  simp only [List.count_append] at hb'
  have hle := hands_le os' n
  have hpos : 0 < (evs os').count (.good n) + (evs os').count (.bad n) := by
    rcases hr'.status hg n st (by rw [ho]; exact List.mem_append_right _ hst) with rfl | rfl
    · have : 0 < (evs os').count (.good n) := List.count_pos_iff.2 (List.mem_filterMap.2 ⟨_, hst, rfl⟩)
      omega
    · have : 0 < (evs os').count (.bad n) := List.count_pos_iff.2 (List.mem_filterMap.2 ⟨_, hst, rfl⟩)
      omega
  have hheld : holder σ.out n ≠ none ↔ Held (evs σ.out) n := (hi.held n).symm
  have hheld' : holder σ'.out n ≠ none ↔ Held (evs σ'.out) n := (hi'.held n).symm
  unfold Held at hheld hheld'
  rw [ho, evs_append, ← ho] at hheld'
  simp only [List.count_append] at hheld'
  -- at most one answer
  have hone : (os'.filterMap ansOf).countP (fun a => decide (a.2 = some n)) = 0 ∨
      (os'.filterMap ansOf).countP (fun a => decide (a.2 = some n)) = 1 ∧ holder σ.out n = none ∧ h2 n ≠ none := by
    rcases o with _ | ⟨m, s2⟩
    · rw [ef.1]; exact Or.inl rfl
    · cases m with
      | acquire t =>
        rcases ef with ⟨n', _, _, e0, _, e1, e2⟩ | ⟨e0, _⟩ | ⟨e0, _⟩
        · rw [e0]
          by_cases hnn : n' = n
          · subst hnn
            exact Or.inr ⟨by simp, e1, by rw [e2]; simp⟩
          · exact Or.inl (by simp [hnn])
        · rw [e0]; exact Or.inl (by simp)
        · rw [e0]; exact Or.inl rfl
      | release n' st => rw [ef.1]; exact Or.inl rfl
      | blockFailed n' w => rw [ef.1]; exact Or.inl rfl
      | clientException => exact absurd ef id
      | other => exact absurd ef id
  constructor
  · intro s hn
    rcases holder_iteration hg hi hk he hn with h1 | h1
    swap
    · exact h1
    exfalso
    have h3 := hheld'.1 (by rw [h1]; simp)
    rcases hone with h4 | ⟨_, h4, _⟩
    · omega
    · rw [hn] at h4; cases h4
  · intro hn
    by_contra hc
    push Not at hc
    have h3 : holder σ'.out n = h2 n := by
      rw [hh, if_neg]
      rintro ⟨s, _, h4⟩
      exact hc s h4
    have h4 : ¬ _ := mt hheld.2 (not_not.2 hn)
    rcases hone with h5 | ⟨h5, _, h6⟩
    · omega
    · rw [← h3] at h6
      have := hheld'.1 h6
      omega

/-- Histories determine states. -/
theorem ClRun.det (h : ClRun g c es x) (h' : ClRun g c es y) : x = y := by
  induction h generalizing y with
  | init h =>
    generalize hn : ([] : List (ClEv N T S)) = l at h'
    cases h' with
    | init h' => rw [h] at h'; cases h'; rfl
    | step e _ _ _ => simp at hn
  | @step es x x' e hr hl hs ih =>
    generalize hn : es ++ [e] = l at h'
    cases h' with
    | init h' => simp at hn
    | step e' hr' hl' hs' =>
      obtain ⟨rfl, h1⟩ := List.append_inj' hn rfl
      cases h1
      obtain rfl := ih hr'
      rw [hs] at hs'
      cases hs'; rfl

namespace Spec.ClForever

theorem tick_loop {pk : Nat → Finset N → N} {i : Nat} {m : Msg N T} {s : S}
    (h : (tickAt pk (X i) (E i)).recv = .msg m s) : ReadsMsg X E i m s := by
  unfold tickAt at h
  split at h
  · next l he =>
    split at h
    · cases h
    · next hs => exact ⟨by simpa using hs, l, he, h⟩
  · cases h

theorem tick_closed {pk : Nat → Finset N → N} (h : ClForever g c X E) {i : Nat} {s : S}
    (hc : (tickAt pk (X i) (E i)).closed s = true) : s ∈ (X (i + 1)).sys.closed := by
  unfold tickAt at hc
  split at hc
  · next l he =>
    split at hc
    · cases hc
    · next hs =>
      have hst := h.step i (by simpa using hs)
      rw [he] at hst
      obtain ⟨_, _, _, hcl, _⟩ := loop_parts (step_sys hst)
      rw [hcl]
      exact of_decide_eq_true hc
  · cases hc

/-- Only clients lose their connection. -/
theorem closed_conn (h : ClForever g c X E) (hg : g.Loose) {i : Nat} {s : S} (hs : s ∈ (X i).sys.closed) :
    ∃ k, (X i).conn s = some k := by
  induction i with
  | zero =>
    have hi := h.init
    unfold Cluster.init at hi
    split at hi
    · cases hi
    · next y hy =>
      injection hi with hi
      rw [← hi] at hs
      unfold Sys.init at hy
      dsimp only at hy
      split at hy
      · cases hy
      · cases hy; cases hs
  | succ i ih =>
    cases hst : (X i).sys.srv.stop with
    | true => rw [h.stopped i hst] at hs ⊢; exact ih hs
    | false =>
      have hk : ∃ k, (X i).conn s = some k := by
        rcases closed_fault (h.legal i hst) (h.step i hst) hs with h1 | h1
        · exact ih h1
        · have hl := h.legal i hst
          generalize E i = e at h1 hl
          cases e with
          | kill s' => cases h1; obtain ⟨k, hk, _⟩ := hl; exact ⟨k, hk⟩
          | breaks s' v => cases h1; exact hl.1
          | client s' b => obtain ⟨rfl, _⟩ := h1; obtain ⟨k, hk, _⟩ := hl; exact ⟨k, hk⟩
          | sys e =>
            cases e with
            | close s' => cases h1; obtain ⟨_, k, hk, _⟩ := hl; exact ⟨k, hk⟩
            | loop l => obtain ⟨k, hk, _⟩ := hl.2.2 s h1; exact ⟨k, hk⟩
            | _ => exact absurd h1 id
          | _ => exact absurd h1 id
      obtain ⟨k, hk⟩ := hk
      exact h.conn_mono hg (Nat.le_succ i) hk

/-- Whoever has a connection has connected. -/
theorem conn_from (h : ClForever g c X E) {i : Nat} {s : S} {k : Conn N T} (hk : (X i).conn s = some k) :
    ∃ j t w, j < i ∧ (X j).sys.srv.stop = false ∧ E j = .connect s t w := by
  induction i generalizing k with
  | zero =>
    have hi := h.init
    unfold Cluster.init at hi
    split at hi
    · cases hi
    · injection hi with hi
      rw [← hi] at hk
      cases hk
  | succ i ih =>
    cases hst : (X i).sys.srv.stop with
    | true =>
      rw [h.stopped i hst] at hk
      obtain ⟨j, t, w, h1, h2⟩ := ih hk
      exact ⟨j, t, w, by omega, h2⟩
    | false =>
      cases hx : (X i).conn s with
      | none =>
        obtain ⟨t, w, he⟩ := connect_of_none (h.step i hst) hx hk
        exact ⟨i, t, w, by omega, hst, he⟩
      | some k0 =>
        obtain ⟨j, t, w, h1, h2⟩ := ih hx
        exact ⟨j, t, w, by omega, h2⟩

theorem reliable_conn (h : ClForever g c X E) (hr : AllReliable X E) {i : Nat} {s : S} {k : Conn N T}
    (hk : (X i).conn s = some k) : Reliable X E s := by
  obtain ⟨j, t, w, _, h2, h3⟩ := h.conn_from hk
  exact hr j s t w h2 h3

theorem none_closed (h : ClForever g c X E) (hg : g.Loose) (hr : AllReliable X E) (i : Nat) : (X i).sys.closed = [] := by
  rcases hc : (X i).sys.closed with _ | ⟨s, l⟩
  · rfl
  · have hm : s ∈ (X i).sys.closed := by rw [hc]; exact List.mem_cons_self
    obtain ⟨k, hk⟩ := h.closed_conn hg hm
    exact absurd hm (h.fit hg (h.reliable_conn hr hk) i).1

/-- If no client fails, nothing more has to happen. -/
theorem fair_of_live (h : ClForever g c X E) (hg : g.Loose) (hr : AllReliable X E) (hf : ClLive g X E)
    {pk : Nat → Finset N → N} (hp : LegalPick pk) : ClFair g X E := by
  have hF := h.forever hg hp
  refine { hf with noticed := ?_, replaced := ?_ }
  · intro i s k hk ho
    exact ⟨i, le_rfl, Or.inr (Or.inr ⟨k, hk, ((h.fit hg (h.reliable_conn hr hk) i).2 k hk).over ho⟩)⟩
  · intro i n hb
    left
    obtain ⟨os, st, ho, hst⟩ := hb
    dsimp only at ho
    have hs : (X i).sys.srv.stop = false := by
      cases hs : (X i).sys.srv.stop with
      | false => rfl
      | true =>
        rw [h.stopped i hs] at ho
        have : os = [] := by simpa using ho
        rw [this] at hst; cases hst
    obtain ⟨ks, hsr⟩ := hF.run i
    cases hn : holder (X i).sys.srv.out n with
    | none =>
      obtain ⟨s, h1⟩ := (release_back hg hsr hs (hF.good i) (hF.step i hs) ho hst).2 hn
      have := h.tick_closed h1
      rw [h.none_closed hg hr] at this
      cases this
    | some s =>
      refine ⟨s, rfl, ?_⟩
      cases hk : (X i).conn s with
      | some k => exact h.reliable_conn hr hk
      | none => exact absurd hn (((h.inv hg i).fresh s hk).2.2 n)

/-- Clients that do not fail ask again. -/
theorem again (h : ClForever g c X E) (hg : g.Loose) (hf : ClFair g X E) {pk : Nat → Finset N → N} (hp : LegalPick pk) :
    AsksAgain g (fun i => (X i).sys.srv) (fun i => tickAt pk (X i) (E i)) := by
  have hF := h.forever hg hp
  intro i n hb
  rcases hf.replaced i n hb with ⟨s, hn, hr⟩ | ⟨j, hj, hc⟩
  · obtain ⟨os, st, ho, hst⟩ := hb
    dsimp only at ho
    have hs : (X i).sys.srv.stop = false := by
      cases hs : (X i).sys.srv.stop with
      | false => rfl
      | true =>
        rw [h.stopped i hs] at ho
        have : os = [] := by simpa using ho
        rw [this] at hst; cases hst
    obtain ⟨ks, hsr⟩ := hF.run i
    have hm : ∃ m, IsReturn n m ∧ ReadsMsg X E i m s := by
      rcases (release_back hg hsr hs (hF.good i) (hF.step i hs) ho hst).1 s hn with (⟨st', h1⟩ | ⟨w, h1⟩) | h1
      · exact ⟨.release n st', rfl, tick_loop h1⟩
      · exact ⟨.blockFailed n w, rfl, tick_loop h1⟩
      · exact absurd (h.tick_closed h1) (h.fit hg hr (i + 1)).1
    obtain ⟨m, hret, _, l, he, hrecv⟩ := hm
    have hq := recv_mem hrecv
    have hopen := (h.fit hg hr i).1
    obtain ⟨k, hk⟩ : ∃ k, (X i).conn s = some k := by
      cases hk : (X i).conn s with
      | some k => exact ⟨k, rfl⟩
      | none => exact absurd hn (((h.inv hg i).fresh s hk).2.2 n)
    have htask : g.task n = k.task := by
      obtain ⟨es, hrun⟩ := h.run i
      exact ClRun.heldTask hg hrun s k n hk hn
    have hmu : m ∈ queued s (X i).sys.queue ++ underway k :=
      List.mem_append_left _ (mem_queued.2 (by rw [hq]; exact List.mem_cons_self))
    have hpart : ¬ Parting k := by
      intro hpa
      rw [((h.bye hg i s k hk).calm hopen hpa).1] at hmu
      cases hmu
    obtain ⟨k', hk', heff⟩ := h.eff hg hs hk
    have hstp := h.step i hs
    rw [he] at heff hstp
    obtain ⟨_, _, _, _, hqq, _⟩ := loop_parts (step_sys hstp)
    have hk2 : k'.phase = k.phase ∧ underway k' = underway k ∧ k'.task = k.task := by
      cases heff with
      | loop l os hl hz ho => split <;> exact ⟨rfl, rfl, rfl⟩
      | other _ _ _ _ _ _ _ _ _ _ _ h9 => exact absurd rfl (h9 l)
    have hcase : .acquire k'.task ∈ queued s (X (i + 1)).sys.queue ++ underway k' ∨ k'.phase = .idle ∨
        ∃ n e, k'.phase = .failing n e := by
      rw [hk2.1, hk2.2.1, hk2.2.2, hqq]
      have htalk := ((h.inv hg i).conn s k hk).talk hopen
      unfold Talk at htalk
      cases hph : k.phase with
      | idle => exact Or.inr (Or.inl rfl)
      | failing a b => exact Or.inr (Or.inr ⟨a, b, rfl⟩)
      | working a => simp only [hph] at htalk; rw [htalk.1] at hmu; cases hmu
      | leaving => exact absurd (Or.inl hph) hpart
      | ended e =>
        exact absurd (Or.inr (Or.inr (((h.fit hg hr i).2 k hk).over (by rw [hph]; trivial)))) hpart
      | killed =>
        exact absurd (Or.inr (Or.inr (((h.fit hg hr i).2 k hk).over (by rw [hph]; trivial)))) hpart
      | waiting =>
        simp only [hph] at htalk
        rcases htalk with ⟨u', h1, _⟩ | ⟨h1, _⟩ | ⟨h1, _⟩ | ⟨_, h1, _⟩
        · left
          have h2 : .acquire k.task ∈ queued s (X i).sys.queue ++ underway k := by rw [h1]; simp
          rcases List.mem_append.1 h2 with h2 | h2
          · rw [mem_queued, hq] at h2
            rcases List.mem_cons.1 h2 with h2 | h2
            · cases h2; exact absurd hret id
            · exact List.mem_append_left _ (mem_queued.2 h2)
          · exact List.mem_append_right _ h2
        · rw [h1] at hmu; cases hmu
        · rw [h1] at hmu; cases hmu
        · rw [h1] at hmu; cases hmu
    obtain ⟨j, h1, h2⟩ := h.asks hg hf hr hk' hcase
    rw [hk2.2.2, ← htask] at h2
    refine ⟨j, by omega, ?_⟩
    rcases h2 with h2 | h2
    · exact Or.inl h2
    · exact Or.inr (Or.inr ⟨s, h2.tick pk⟩)
  · rcases hc with hc | hc | hc
    · exact ⟨j, hj, Or.inl hc⟩
    · exact ⟨j, hj, Or.inr (Or.inl hc)⟩
    · obtain ⟨j', h1, h2⟩ := h.joined hg hf hc
      refine ⟨j', by omega, ?_⟩
      rcases h2 with h2 | ⟨s, h2⟩
      · exact Or.inl h2
      · exact Or.inr (Or.inr ⟨s, h2.tick pk⟩)

/-- The history of an execution. -/
theorem history (h : ClForever g c X E) (i : Nat) : ∃ m, (m = i ∨ (X i).sys.srv.stop = true) ∧
    (∀ j < m, (X j).sys.srv.stop = false ∧ ClRun g c ((List.range j).map E) (X j)) ∧
    ClRun g c ((List.range m).map E) (X i) := by
  induction i with
  | zero => exact ⟨0, Or.inl rfl, by simp, .init h.init⟩
  | succ i ih =>
    obtain ⟨m, h1, h2, h3⟩ := ih
    cases hst : (X i).sys.srv.stop with
    | true => exact ⟨m, Or.inr (by rw [h.stopped i hst]; exact hst), h2, by rw [h.stopped i hst]; exact h3⟩
    | false =>
      rw [hst] at h1
      obtain rfl := h1.resolve_right (by simp)
      refine ⟨m + 1, Or.inl rfl, ?_, ?_⟩
      · intro j hj
        by_cases hjm : j = m
        · subst hjm; exact ⟨hst, h3⟩
        · exact h2 j (by omega)
      · rw [List.range_succ, List.map_append]
        exact .step (E m) h3 (h.legal m hst) (h.step m hst)

/-- What happened in the process functions. -/
theorem ran (h : ClForever g c X E) {i : Nat} : ∃ es, ClRun g c es (X i) ∧ ∀ n P, Ran g c es n P →
    ∃ j s body, (X j).sys.srv.stop = false ∧ E j = .client s body ∧ WorksOn (X j) s n ∧ P body := by
  obtain ⟨m, _, h2, h3⟩ := h.history i
  refine ⟨_, h3, ?_⟩
  rintro n P ⟨es₁, s, body, es₂, y, e1, e2, e3, e4⟩
  have hlen : es₁.length < m := by
    have := congrArg List.length e1
    simp at this
    omega
  obtain ⟨h4, h5⟩ := h2 es₁.length hlen
  have hes : es₁ = (List.range es₁.length).map E := by
    have h6 := congrArg (List.take es₁.length) e1
    rw [List.take_left, ← List.map_take, List.take_range] at h6
    rw [Nat.min_eq_left (by omega)] at h6
    exact h6.symm
  rw [← hes] at h5
  obtain rfl := ClRun.det e2 h5
  have h6 : E es₁.length = .client s body := by
    have h7 := congrArg (·[es₁.length]?) e1
    simp [hlen] at h7
    exact h7
  exact ⟨_, s, body, h4, h6, e3, e4⟩

/-- What processes, network and operating system have to do is enough for the server. -/
theorem fair (h : ClForever g c X E) (hg : g.Loose) (hf : ClFair g X E) {pk : Nat → Finset N → N} (hp : LegalPick pk)
    (hx : ∀ i, OrphanExact g (evs (X i).sys.srv.out)) :
    Fair g (fun i => (X i).sys.srv) (fun i => tickAt pk (X i) (E i)) := by
  have hF := h.forever hg hp
  refine ⟨fun i n s hn => h.returned hg hf hp hn, ?_, ?_, ?_⟩
  · intro i t ht
    obtain ⟨j, hc⟩ := hf.staffed i t ht
    rcases hc with hc | hc | hc
    · exact ⟨max i j, le_max_left _ _, Or.inl (hF.stop_mono (le_max_right _ _) hc)⟩
    · exact ⟨max i j, le_max_left _ _, Or.inr (Or.inl (hF.finished_mono hg (le_max_right _ _) hc))⟩
    · obtain ⟨j', h1, h2⟩ := h.joined hg hf hc
      rcases h2 with h2 | ⟨s, h2⟩
      · exact ⟨max i j', le_max_left _ _, Or.inl (hF.stop_mono (le_max_right _ _) h2)⟩
      · exact hF.asks_on hg (fun i n s hn => h.returned hg hf hp hn) (h.again hg hf hp) hx (h2.tick pk) i
  · intro i
    obtain ⟨j, h1, h2⟩ := hf.idle i
    refine ⟨j, h1, ?_⟩
    rcases h2 with h2 | ⟨l, h2, h3⟩
    · exact Or.inl h2
    · by_cases hs : (X j).sys.srv.stop = true
      · exact Or.inl hs
      · right
        rw [h2]
        simp only [tickAt, hs]
        exact h3
  · intro i
    obtain ⟨j, h1, h2⟩ := hf.late i
    refine ⟨j, h1, ?_⟩
    rcases h2 with h2 | ⟨l, h2, h3⟩
    · exact Or.inl h2
    · by_cases hs : (X j).sys.srv.stop = true
      · exact Or.inl hs
      · right
        rw [h2]
        simp only [tickAt, hs]
        exact h3

end Spec.ClForever

end Verif
