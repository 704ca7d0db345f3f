import Verif.Proofs.ClusterBye
import Verif.Proofs.ClusterHist
import Verif.Proofs.ClusterProj
import Verif.Proofs.ServerAgain
import Verif.Spec.ClusterFair

/-! # Executions without end of the server with its workers -/

set_option linter.unusedSectionVars false

namespace Verif

open Spec

variable {N T K S : Type} [DecidableEq N] [DecidableEq T] [DecidableEq K] [DecidableEq S]
  {g : DGraph N T K} {c : SysConf T} {es : List (ClEv N T S)} {x y : Cluster N T K S}
  {X : Nat → Cluster N T K S} {E : Nat → ClEv N T S}

theorem leads {P Q : Nat → Prop} {i : Nat} (h0 : P i) (hs : ∀ j, i ≤ j → P j → Q j ∨ P (j + 1)) (m : Nat)
    (hm : i ≤ m) : (∃ j, i ≤ j ∧ j < m ∧ P j ∧ Q j) ∨ P m := by
  obtain ⟨d, rfl⟩ := Nat.exists_eq_add_of_le hm
  clear hm
  induction d with
  | zero => exact Or.inr h0
  | succ d ih =>
    rcases ih with ⟨j, h1, h2, h3⟩ | ih
    · exact Or.inl ⟨j, h1, by omega, h3⟩
    · rcases hs (i + d) (by omega) ih with h | h
      · exact Or.inl ⟨i + d, by omega, by omega, ih, h⟩
      · exact Or.inr h

namespace Spec.ClForever

theorem run (h : ClForever g c X E) (i : Nat) : ∃ es, ClRun g c es (X i) := by
  induction i with
  | zero => exact ⟨[], .init h.init⟩
  | succ i ih =>
    obtain ⟨es, ih⟩ := ih
    cases hs : (X i).sys.srv.stop with
    | true => exact ⟨es, by rw [h.stopped i hs]; exact ih⟩
    | false => exact ⟨_, .step (E i) ih (h.legal i hs) (h.step i hs)⟩

theorem inv (h : ClForever g c X E) (hg : g.Loose) (i : Nat) : ClInv g c (X i) := by
  obtain ⟨es, hr⟩ := h.run i
  exact ClRun.inv hg hr

theorem bye (h : ClForever g c X E) (hg : g.Loose) (i : Nat) : ByeInv (X i) := by
  obtain ⟨es, hr⟩ := h.run i
  exact ClRun.bye hg hr

/-- What happens to a connection. -/
theorem eff (h : ClForever g c X E) (hg : g.Loose) {i : Nat} {s : S} {k : Conn N T} (hs : (X i).sys.srv.stop = false)
    (hk : (X i).conn s = some k) : ∃ k', (X (i + 1)).conn s = some k' ∧ Eff g c (X i) (X (i + 1)) s k (E i) k' :=
  eff_of_step hg (h.inv hg i) (h.legal i hs) (h.step i hs) hk

/-- Connections stay. -/
theorem conn_mono (h : ClForever g c X E) (hg : g.Loose) {i j : Nat} (hij : i ≤ j) {s : S} {k : Conn N T}
    (hk : (X i).conn s = some k) : ∃ k', (X j).conn s = some k' := by
  obtain ⟨d, rfl⟩ := Nat.exists_eq_add_of_le hij
  clear hij
  induction d with
  | zero => exact ⟨k, hk⟩
  | succ d ih =>
    obtain ⟨k', hk'⟩ := ih
    cases hs : (X (i + d)).sys.srv.stop with
    | true => exact ⟨k', by rw [← Nat.add_assoc, h.stopped _ hs]; exact hk'⟩
    | false =>
      obtain ⟨k'', h1, _⟩ := h.eff hg hs hk'
      exact ⟨k'', h1⟩

theorem stop_mono (h : ClForever g c X E) {i j : Nat} (hij : i ≤ j) (hs : (X i).sys.srv.stop = true) : X j = X i := by
  obtain ⟨d, rfl⟩ := Nat.exists_eq_add_of_le hij
  clear hij
  induction d with
  | zero => rfl
  | succ d ih => rw [← Nat.add_assoc, h.stopped _ (by rw [ih]; exact hs), ih]

end Spec.ClForever

theorem up_sys (x : Cluster N T K S) (s : S) : (x.up s).sys.srv = x.sys.srv ∧ (x.up s).sys.closed = x.sys.closed ∧
    ∃ q, (x.up s).sys.queue = x.sys.queue ++ q := by
  unfold Cluster.up
  split
  · exact ⟨rfl, rfl, [], by simp⟩
  · split
    · exact ⟨rfl, rfl, [], by simp⟩
    · dsimp only
      split
      · exact ⟨rfl, rfl, _, rfl⟩
      · exact ⟨rfl, rfl, [], by simp⟩

/-- Every event is an iteration, or the server does not change. -/
theorem step_server {e : ClEv N T S} (hl : LegalCl c x e) (hs : x.step g c e = .ok y) :
    (∃ l, e = .sys (.loop l) ∧ x.sys.loop g c l = .ok y.sys) ∨
    ((∀ l, e ≠ .sys (.loop l)) ∧ y.sys.srv = x.sys.srv ∧ (∀ a ∈ x.sys.closed, a ∈ y.sys.closed) ∧
      ∃ q, y.sys.queue = x.sys.queue ++ q) := by
  cases e with
  | connect s t w => cases hs; exact Or.inr ⟨by simp, rfl, fun _ h => h, [], by simp⟩
  | client s b => cases hs; exact Or.inr ⟨by simp, rfl, fun _ h => h, [], by simp [Cluster.modify]⟩
  | kill s => cases hs; exact Or.inr ⟨by simp, rfl, fun _ h => h, [], by simp [Cluster.modify]⟩
  | breaks s v => cases hs; exact Or.inr ⟨by simp, rfl, fun _ h => h, [], by simp [Cluster.modify]⟩
  | down s => cases hs; exact Or.inr ⟨by simp, rfl, fun _ h => h, [], by simp [Cluster.modify]⟩
  | up s =>
    cases hs
    obtain ⟨h1, h2, h3⟩ := up_sys x s
    exact Or.inr ⟨by simp, h1, fun _ h => by rw [h2]; exact h, h3⟩
  | sys e =>
    cases e with
    | arrive m s => exact absurd hl id
    | close s =>
      cases hs
      exact Or.inr ⟨by simp, rfl, fun _ h => List.mem_append_left _ h, [], by simp⟩
    | proc p => cases hs; exact Or.inr ⟨by simp, rfl, fun _ h => h, [], by simp⟩
    | loop l => exact Or.inl ⟨l, rfl, step_sys hs⟩

theorem step_closed {e : ClEv N T S} (hl : LegalCl c x e) (hs : x.step g c e = .ok y) :
    ∀ a ∈ x.sys.closed, a ∈ y.sys.closed := by
  rcases step_server hl hs with ⟨l, _, hz⟩ | ⟨_, _, h, _⟩
  · intro a ha
    obtain ⟨_, _, _, hcl, _⟩ := loop_parts hz
    rw [hcl]
    exact List.mem_append_left _ ha
  · exact h


theorem quiet_good {pk : Nat → Finset N → N} (hp : LegalPick pk) : GoodTick g c.cfg (tickAt.quiet pk : Server.Tick N T S) :=
  ⟨fun m s h => (by cases h), hp, fun _ => hp⟩

/-- Nothing happens in an iteration in which nothing happens. -/
theorem quiet_iteration {σ : Server N T K S} (h : SInv g σ) (cfg : SConf T) (pk : Nat → Finset N → N) :
    σ.iteration g cfg (tickAt.quiet pk) = .ok σ := by
  have h1 : σ.checkLost g (fun _ => pk) (fun _ => false) (fun _ => 0) = .ok σ := by
    unfold Server.checkLost
    rw [Book.getLost_none _ _ h.nodup]
    simp [Server.releaseLost]
  simp only [Server.iteration, tickAt.quiet, Server.handleMessages, h1]
  rfl

namespace Spec.ClForever

/-- The server by itself. -/
theorem forever (h : ClForever g c X E) (hg : g.Loose) {pk : Nat → Finset N → N} (hp : LegalPick pk) :
    Forever g c.cfg (fun i => (X i).sys.srv) (fun i => tickAt pk (X i) (E i)) := by
  have hgood : ∀ i l, E i = .sys (.loop l) → (X i).sys.srv.stop = false → GoodTick g c.cfg ((X i).sys.tickOf l) := by
    intro i l he hs
    have hl := h.legal i hs
    rw [he] at hl
    obtain ⟨es, hr⟩ := (h.inv hg i).run
    exact goodTick_of hr ⟨hl.1, hl.2.1⟩
  refine ⟨?_, ?_, ?_, ?_⟩
  · have := h.init
    unfold Cluster.init at this
    split at this
    · cases this
    · next y hy =>
      injection this with this
      unfold Sys.init at hy
      dsimp only at hy
      split at hy
      · cases hy
      · cases hy
        rw [← this]
  · intro i
    unfold tickAt
    split
    · next l he =>
      split
      · exact quiet_good hp
      · next hs => exact hgood i l he (by simpa using hs)
    · exact quiet_good hp
  · intro i hs
    rw [h.stopped i hs]
  · intro i hs
    have hl := h.legal i hs
    have hst := h.step i hs
    rcases step_server hl hst with ⟨l, he, hz⟩ | ⟨he, h1, _⟩
    · rw [he]
      simp only [tickAt, hs]
      exact loop_iteration hz
    · have : tickAt pk (X i) (E i) = tickAt.quiet pk := by
        unfold tickAt
        split
        · next l hl => exact absurd hl (he l)
        · rfl
      rw [this, h1]
      obtain ⟨es, hr⟩ := h.run i
      obtain ⟨ks, hsr⟩ := ClRun.srun hg hr
      exact quiet_iteration (hsr.inv hg) _ _

theorem closed_mono (h : ClForever g c X E) {i j : Nat} (hij : i ≤ j) {s : S} (hs : s ∈ (X i).sys.closed) :
    s ∈ (X j).sys.closed := by
  obtain ⟨d, rfl⟩ := Nat.exists_eq_add_of_le hij
  clear hij
  induction d with
  | zero => exact hs
  | succ d ih =>
    cases hst : (X (i + d)).sys.srv.stop with
    | true => rw [← Nat.add_assoc, h.stopped _ hst]; exact ih
    | false => exact step_closed (h.legal _ hst) (h.step _ hst) s ih

end Spec.ClForever

/-! ### Messages are handled -/

theorem exits_frame (k : Conn N T) (n : N) (st : StatusVal) (e : Option ClientErr) :
    (k.exits (Client.finish k.tcp n st e)).worker = k.worker ∧ (k.exits (Client.finish k.tcp n st e)).task = k.task ∧
    ∃ r, (k.exits (Client.finish k.tcp n st e)).tcp.outbox = k.tcp.outbox ++ r := by
  unfold Client.finish
  dsimp only
  rcases send_cases k.tcp (.release n (if st ≠ .enum .success then .enum .failed else st)) with
    ⟨e', c', h1, h2, h3, h4, h5, h6⟩ | ⟨h1, h2⟩
  · rw [h1]
    exact ⟨rfl, rfl, [], by simp only [Conn.exits, h3, List.append_nil]⟩
  · rw [h1]
    cases e <;> exact ⟨rfl, rfl, _, rfl⟩

/-- A step of a client only adds messages. -/
theorem client_frame (k : Conn N T) (body : BodyEnd) : (k.step body).worker = k.worker ∧
    (k.step body).task = k.task ∧ ∃ r, (k.step body).tcp.outbox = k.tcp.outbox ++ r := by
  cases hph : k.phase with
  | idle =>
    simp only [Conn.step, hph]
    rcases send_cases k.tcp (.acquire k.task) with ⟨e', c', h1, h2, h3, h4, h5, h6⟩ | ⟨h1, h2⟩
    · rw [h1]; exact ⟨rfl, rfl, [], by simp only [h3, List.append_nil]⟩
    · rw [h1]; exact ⟨rfl, rfl, _, rfl⟩
  | waiting =>
    simp only [Conn.step, hph]
    rcases get_cases k.tcp with ⟨e', c', h1, h2, h3, h4, h5, h6⟩ | ⟨hc, ⟨hi, h1⟩ | ⟨m, r, hi, h1⟩⟩
    · rw [h1]
      cases e' <;> exact ⟨rfl, rfl, [], by simp only [h3, List.append_nil]⟩
    · rw [h1]; exact ⟨rfl, rfl, [], by simp⟩
    · rw [h1]
      cases m with
      | other => exact ⟨rfl, rfl, [], by simp⟩
      | sendBlock b => exact ⟨rfl, rfl, [], by simp⟩
      | requestShutdown =>
        dsimp only
        split
        · exact ⟨rfl, rfl, [], by simp⟩
        · split
          · exact ⟨rfl, rfl, [], by simp⟩
          · exact ⟨rfl, rfl, _, rfl⟩
  | leaving =>
    simp only [Conn.step, hph]
    split
    · exact ⟨rfl, rfl, [], by simp⟩
    · exact ⟨rfl, rfl, [], by simp⟩
  | working n =>
    simp only [Conn.step, hph]
    cases hb : body.raised with
    | none => exact exits_frame _ _ _ _
    | some e =>
      dsimp only
      split
      · rcases send_cases k.tcp (.blockFailed n e) with ⟨e', c', h1, h2, h3, h4, h5, h6⟩ | ⟨h1, h2⟩
        · rw [h1]; exact ⟨rfl, rfl, [], by simp only [h3, List.append_nil]⟩
        · rw [h1]; exact ⟨rfl, rfl, _, rfl⟩
      · exact exits_frame _ _ _ _
  | failing n e => simp only [Conn.step, hph]; exact exits_frame _ _ _ _
  | ended e => simp only [Conn.step, hph]; exact ⟨trivial, trivial, [], by simp⟩
  | killed => simp only [Conn.step, hph]; exact ⟨trivial, trivial, [], by simp⟩

theorem Eff.names {s : S} {k k' : Conn N T} {e : ClEv N T S} (h : Eff g c x y s k e k') :
    k'.worker = k.worker ∧ k'.task = k.task := by
  cases h with
  | client body h1 h2 => exact ⟨(client_frame k body).1, (client_frame k body).2.1⟩
  | loop l os hl hz ho => split <;> exact ⟨rfl, rfl⟩
  | _ => exact ⟨rfl, rfl⟩

/-- Only when a message reaches the server it leaves the outbox. -/
theorem Eff.outbox {s : S} {k k' : Conn N T} {e : ClEv N T S} (h : Eff g c x y s k e k') (he : e ≠ .up s) :
    ∃ r, k'.tcp.outbox = k.tcp.outbox ++ r := by
  cases h with
  | client body h1 h2 => exact (client_frame k body).2.2
  | breaks v h1 => exact ⟨[], by simp only [net_frame, List.append_nil]⟩
  | down v r hd h1 => exact ⟨[], by simp only [net_frame, List.append_nil]⟩
  | up => exact absurd rfl he
  | bye => exact absurd rfl he
  | loop l os hl hz ho => exact ⟨[], by split <;> simp⟩
  | _ => exact ⟨[], by simp⟩

theorem recv_msg {z : Sys N T K S} {m : Msg N T} {s : S} (h : (m, s) ∈ z.queue) :
    z.recv.1 = .msg m s ∨ (m, s) ∈ z.recv.2.1 := by
  unfold Sys.recv
  split
  · exact Or.inr h
  · split
    · next hq => rw [hq] at h; cases h
    · next m' s' q hq =>
      rw [hq] at h
      rcases List.mem_cons.1 h with h | h
      · cases h; exact Or.inl rfl
      · exact Or.inr h

/-- The server reads message `m` of client `s` in event `j`. -/
def ReadsMsg (X : Nat → Cluster N T K S) (E : Nat → ClEv N T S) (j : Nat) (m : Msg N T) (s : S) : Prop :=
  (X j).sys.srv.stop = false ∧ ∃ l, E j = .sys (.loop l) ∧ (X j).sys.recv.1 = .msg m s

theorem ReadsMsg.tick {j : Nat} {m : Msg N T} {s : S} (h : ReadsMsg X E j m s) (pk : Nat → Finset N → N) :
    (tickAt pk (X j) (E j)).recv = .msg m s := by
  obtain ⟨h1, l, h2, h3⟩ := h
  rw [h2]
  simp only [tickAt, h1]
  exact h3

theorem mem_queued {s : S} {m : Msg N T} {q : List (Msg N T × S)} : m ∈ queued s q ↔ (m, s) ∈ q := by
  unfold queued
  rw [List.mem_filterMap]
  constructor
  · rintro ⟨⟨a, b⟩, h1, h2⟩
    dsimp only at h2
    split_ifs at h2 with hb
    cases h2
    subst hb
    exact h1
  · intro h
    exact ⟨_, h, by simp⟩

namespace Spec.ClForever

theorem queue_read (h : ClForever g c X E) (hf : ClFair g X E) {i : Nat} {s : S} {m : Msg N T}
    (hq : (m, s) ∈ (X i).sys.queue) : ∃ j, i ≤ j ∧ ((X j).sys.srv.stop = true ∨ ReadsMsg X E j m s) := by
  obtain ⟨a, ha, hia⟩ := hf.idle i
  have key : ∀ j, i ≤ j → (m, s) ∈ (X j).sys.queue → ((X j).sys.srv.stop = true ∨ ReadsMsg X E j m s) ∨
      (m, s) ∈ (X (j + 1)).sys.queue := by
    intro j hj hp
    cases hst : (X j).sys.srv.stop with
    | true => exact Or.inl (Or.inl rfl)
    | false =>
      rcases step_server (h.legal j hst) (h.step j hst) with ⟨l, he, hz⟩ | ⟨_, _, _, q, h2⟩
      · obtain ⟨_, _, _, _, h4, _⟩ := loop_parts hz
        rcases recv_msg hp with h5 | h5
        · exact Or.inl (Or.inr ⟨hst, l, he, h5⟩)
        · exact Or.inr (by rw [h4]; exact h5)
      · exact Or.inr (by rw [h2]; exact List.mem_append_left _ hp)
  rcases leads (P := fun j => (m, s) ∈ (X j).sys.queue)
    (Q := fun j => (X j).sys.srv.stop = true ∨ ReadsMsg X E j m s) hq key a ha with ⟨j, h1, _, _, h3⟩ | h1
  · exact ⟨j, h1, h3⟩
  · rcases hia with hs | ⟨l, h2, h3⟩
    · exact ⟨a, ha, Or.inl hs⟩
    · rw [recv_nothing h3] at h1; cases h1

/-- The outbox does not stay as it is. -/
theorem outbox_up (h : ClForever g c X E) (hg : g.Loose) (hf : ClFair g X E) {s : S} {m : Msg N T}
    {m0 : ClientMsg N T} {w : Nat} (hm : Conn.toMsg w m0 = some m) {i : Nat} {k : Conn N T}
    {a b : List (ClientMsg N T)} (hk : (X i).conn s = some k) (hw : k.worker = w) (ho : k.tcp.outbox = a ++ m0 :: b) :
    (∃ j, i ≤ j ∧ ((X j).sys.srv.stop = true ∨ s ∈ (X j).sys.closed)) ∨
    ∃ j, i ≤ j ∧ (X j).sys.srv.stop = false ∧ ∃ k b, (X j).conn s = some k ∧ k.worker = w ∧
      k.tcp.outbox = a ++ m0 :: b ∧ E j = .up s := by
  by_cases hcl : s ∈ (X i).sys.closed
  · exact Or.inl ⟨i, le_rfl, Or.inr hcl⟩
  have hgone : k.gone = false := by
    cases hgn : k.gone with
    | false => rfl
    | true =>
      have := (((h.bye hg i) s k hk).calm hcl (Or.inr (Or.inr hgn))).1
      have hmem : m ∈ underway k := by
        unfold underway
        rw [ho, hw]
        exact List.mem_filterMap.2 ⟨m0, by simp, hm⟩
      rw [List.append_eq_nil_iff] at this
      rw [this.2] at hmem
      cases hmem
  have key : ∀ j, i ≤ j → (∃ k b, (X j).conn s = some k ∧ k.worker = w ∧ k.tcp.outbox = a ++ m0 :: b) →
      ((X j).sys.srv.stop = true ∨ E j = .up s) ∨
      ∃ k b, (X (j + 1)).conn s = some k ∧ k.worker = w ∧ k.tcp.outbox = a ++ m0 :: b := by
    rintro j hj ⟨k1, b1, g1, g2, g3⟩
    by_cases hup : E j = .up s
    · exact Or.inl (Or.inr hup)
    · cases hst : (X j).sys.srv.stop with
      | true => exact Or.inl (Or.inl rfl)
      | false =>
        obtain ⟨k2, e1, e2⟩ := h.eff hg hst g1
        obtain ⟨r, hr⟩ := e2.outbox hup
        exact Or.inr ⟨k2, b1 ++ r, e1, e2.names.1.trans g2, by rw [hr, g3]; simp⟩
  have hgo : ∀ j, i ≤ j → (∃ k b, (X j).conn s = some k ∧ k.worker = w ∧ k.tcp.outbox = a ++ m0 :: b) →
      ((X j).sys.srv.stop = true ∨ E j = .up s) →
      (∃ j, i ≤ j ∧ ((X j).sys.srv.stop = true ∨ s ∈ (X j).sys.closed)) ∨
      ∃ j, i ≤ j ∧ (X j).sys.srv.stop = false ∧ ∃ k b, (X j).conn s = some k ∧ k.worker = w ∧
        k.tcp.outbox = a ++ m0 :: b ∧ E j = .up s := by
    rintro j hj ⟨k1, b1, g1, g2, g3⟩ hq
    cases hst : (X j).sys.srv.stop with
    | true => exact Or.inl ⟨j, hj, Or.inl hst⟩
    | false =>
      rw [hst] at hq
      exact Or.inr ⟨j, hj, hst, k1, b1, g1, g2, g3, hq.resolve_left (by simp)⟩
  obtain ⟨a0, ha0, hsent⟩ := hf.sent i s k hk hgone (by rw [ho]; simp)
  rcases leads (P := fun j => ∃ k b, (X j).conn s = some k ∧ k.worker = w ∧ k.tcp.outbox = a ++ m0 :: b)
    (Q := fun j => (X j).sys.srv.stop = true ∨ E j = .up s) ⟨k, b, hk, hw, ho⟩ key a0 ha0 with ⟨j, h1, _, h2, h3⟩ | h1
  · exact hgo j h1 h2 h3
  · rcases hsent with h2 | h2 | h2
    · exact Or.inl ⟨a0, ha0, Or.inl h2⟩
    · exact Or.inl ⟨a0, ha0, Or.inr h2⟩
    · exact hgo a0 ha0 h1 (Or.inr h2)

theorem outbox_read (h : ClForever g c X E) (hg : g.Loose) (hf : ClFair g X E) {s : S} {m : Msg N T}
    {m0 : ClientMsg N T} {w : Nat} (hm : Conn.toMsg w m0 = some m) (L : Nat) : ∀ (i : Nat) (k : Conn N T)
    (a b : List (ClientMsg N T)), a.length = L → (X i).conn s = some k → k.worker = w → k.tcp.outbox = a ++ m0 :: b →
    ∃ j, i ≤ j ∧ ((X j).sys.srv.stop = true ∨ s ∈ (X j).sys.closed ∨ ReadsMsg X E j m s) := by
  induction L with
  | zero =>
    intro i k a b hL hk hw ho
    obtain rfl := List.eq_nil_of_length_eq_zero hL
    rcases h.outbox_up hg hf hm hk hw ho with h1 | ⟨j, h1, h2, k1, b1, g1, g2, g3, hup⟩
    · obtain ⟨j, h1, h2⟩ := h1
      exact ⟨j, h1, h2.imp_right Or.inl⟩
    · obtain ⟨k2, e1, e2⟩ := h.eff hg h2 g1
      rw [hup] at e2
      cases e2 with
      | up m1 m1' r ho1 hm1 hsys =>
        rw [g3] at ho1
        cases ho1
        rw [g2, hm] at hm1
        cases hm1
        obtain ⟨j', l1, l2⟩ := h.queue_read hf (i := j + 1) (s := s) (m := m) (by rw [hsys]; simp)
        exact ⟨j', by omega, l2.imp_right Or.inr⟩
      | bye r ho1 hsys =>
        rw [g3] at ho1
        cases ho1
        cases hm
      | other _ q h1 h2 h3 h4 h5 h6 h7 h8 h9 h10 => exact absurd rfl h9
  | succ L ih =>
    intro i k a b hL hk hw ho
    obtain ⟨a1, a', rfl⟩ := List.exists_cons_of_length_eq_add_one hL
    rcases h.outbox_up hg hf hm hk hw ho with h1 | ⟨j, h1, h2, k1, b1, g1, g2, g3, hup⟩
    · obtain ⟨j, h1, h2⟩ := h1
      exact ⟨j, h1, h2.imp_right Or.inl⟩
    · obtain ⟨k2, e1, e2⟩ := h.eff hg h2 g1
      rw [hup] at e2
      cases e2 with
      | up m1 m1' r ho1 hm1 hsys =>
        rw [g3] at ho1
        cases ho1
        obtain ⟨j', l1, l2⟩ := ih (j + 1) _ a' b1 (by simpa using hL) e1 g2 rfl
        exact ⟨j', by omega, l2⟩
      | bye r ho1 hsys =>
        rw [g3] at ho1
        cases ho1
        obtain ⟨j', l1, l2⟩ := ih (j + 1) _ a' b1 (by simpa using hL) e1 g2 rfl
        exact ⟨j', by omega, l2⟩
      | other _ q h1 h2 h3 h4 h5 h6 h7 h8 h9 h10 => exact absurd rfl h9

/-- What a client has sent is read some day, unless its stream is closed. -/
theorem msg_read (h : ClForever g c X E) (hg : g.Loose) (hf : ClFair g X E) {i : Nat} {s : S} {k : Conn N T}
    (hk : (X i).conn s = some k) {m : Msg N T} (hm : m ∈ queued s (X i).sys.queue ++ underway k) :
    ∃ j, i ≤ j ∧ ((X j).sys.srv.stop = true ∨ s ∈ (X j).sys.closed ∨ ReadsMsg X E j m s) := by
  rcases List.mem_append.1 hm with hm | hm
  · obtain ⟨j, h1, h2⟩ := h.queue_read hf (mem_queued.1 hm)
    exact ⟨j, h1, h2.imp_right Or.inr⟩
  · obtain ⟨m0, h1, h2⟩ := List.mem_filterMap.1 hm
    obtain ⟨a, b, h3⟩ := List.append_of_mem h1
    exact h.outbox_read hg hf h2 a.length i k a b rfl hk rfl h3

/-! ### Clients go on -/

/-- A client that has not ended does its next step some day. -/
theorem next_step (h : ClForever g c X E) (hg : g.Loose) (hf : ClFair g X E) {i : Nat} {s : S} {k : Conn N T}
    (hk : (X i).conn s = some k) (ho : ¬ Phase.Over k.phase) :
    ∃ j, i ≤ j ∧ ((X j).sys.srv.stop = true ∨ s ∈ (X j).sys.closed ∨ (X j).sys.srv.stop = false ∧
      ∃ k', (X j).conn s = some k' ∧ k'.phase = k.phase ∧ (E j = .kill s ∨
        ∃ body, E j = .client s body ∧ (X (j + 1)).conn s = some (k'.step body))) := by
  have hgo : ∀ j, i ≤ j → (∃ k', (X j).conn s = some k' ∧ k'.phase = k.phase) →
      ((X j).sys.srv.stop = true ∨ E j = .kill s ∨ ∃ body, E j = .client s body) →
      ((X j).sys.srv.stop = true ∨ s ∈ (X j).sys.closed ∨ (X j).sys.srv.stop = false ∧
      ∃ k', (X j).conn s = some k' ∧ k'.phase = k.phase ∧ (E j = .kill s ∨
        ∃ body, E j = .client s body ∧ (X (j + 1)).conn s = some (k'.step body))) := by
    rintro j hj ⟨k', h1, h2⟩ h3
    cases hst : (X j).sys.srv.stop with
    | true => exact Or.inl rfl
    | false =>
      rw [hst] at h3
      rcases h3 with h3 | h3 | ⟨body, h3⟩
      · cases h3
      · exact Or.inr (Or.inr ⟨rfl, k', h1, h2, Or.inl h3⟩)
      · refine Or.inr (Or.inr ⟨rfl, k', h1, h2, Or.inr ⟨body, h3, ?_⟩⟩)
        obtain ⟨k2, e1, e2⟩ := h.eff hg hst h1
        rw [h3] at e2
        cases e2 with
        | client _ _ _ => exact e1
        | other _ _ _ _ _ _ h5 => exact absurd rfl (h5 body)
  obtain ⟨a, ha, hr⟩ := hf.runs i s k hk ho
  have key : ∀ j, i ≤ j → (∃ k', (X j).conn s = some k' ∧ k'.phase = k.phase) →
      ((X j).sys.srv.stop = true ∨ E j = .kill s ∨ ∃ body, E j = .client s body) ∨
      ∃ k', (X (j + 1)).conn s = some k' ∧ k'.phase = k.phase := by
    rintro j hj ⟨k', h1, h2⟩
    cases hst : (X j).sys.srv.stop with
    | true => exact Or.inl (Or.inl rfl)
    | false =>
      obtain ⟨k2, e1, e2⟩ := h.eff hg hst h1
      generalize hE : E j = e at e2
      cases e2 with
      | client body => exact Or.inl (Or.inr (Or.inr ⟨body, rfl⟩))
      | kill => exact Or.inl (Or.inr (Or.inl rfl))
      | loop l os hl hz ho => exact Or.inr ⟨_, e1, by split <;> exact h2⟩
      | _ => exact Or.inr ⟨_, e1, h2⟩
  rcases leads (P := fun j => ∃ k', (X j).conn s = some k' ∧ k'.phase = k.phase)
    (Q := fun j => (X j).sys.srv.stop = true ∨ E j = .kill s ∨ ∃ body, E j = .client s body) ⟨k, hk, rfl⟩
    key a ha with ⟨j, h1, _, h2, h3⟩ | h1
  · exact ⟨j, h1, hgo j h1 h2 h3⟩
  · rcases hr with h2 | h2 | h2 | h2
    · exact ⟨a, ha, Or.inl h2⟩
    · exact ⟨a, ha, Or.inr (Or.inl h2)⟩
    · exact ⟨a, ha, hgo a ha h1 (Or.inr (Or.inr h2))⟩
    · exact ⟨a, ha, hgo a ha h1 (Or.inr (Or.inl h2))⟩

end Spec.ClForever

end Verif
