import Verif.Proofs.ClusterBye
import Verif.Proofs.ClusterHist
import Verif.Proofs.ServerCount

/-! # How worker processes end -/

set_option linter.unusedSectionVars false

namespace Verif

open Spec

variable {N T K S : Type} [DecidableEq N] [DecidableEq T] [DecidableEq K] [DecidableEq S]
  {g : DGraph N T K} {c : SysConf T} {es : List (ClEv N T S)} {x y : Cluster N T K S}

/-! ### Requests to shut down are about the task of the client -/

theorem step_task (k : Conn N T) (body : BodyEnd) : (k.step body).task = k.task := by
  have hex : ∀ r : Option ClientErr × TcpClient N T, (k.exits r).task = k.task := by
    intro r
    unfold Conn.exits
    split <;> rfl
  cases hph : k.phase with
  | idle => simp only [Conn.step, hph]; split <;> rfl
  | waiting =>
    simp only [Conn.step, hph]
    split <;> first | rfl | skip
    split_ifs <;> rfl
  | leaving => simp only [Conn.step, hph]; split_ifs <;> rfl
  | working n =>
    simp only [Conn.step, hph]
    split
    · exact hex _
    · split_ifs
      · split <;> rfl
      · exact hex _
  | failing n e => simp only [Conn.step, hph]; exact hex _
  | ended e => simp only [Conn.step, hph]
  | killed => simp only [Conn.step, hph]

theorem Eff.task {s : S} {k k' : Conn N T} {e : ClEv N T S} (h : Eff g c x y s k e k') : k'.task = k.task := by
  cases h with
  | client body => exact step_task k body
  | loop l os => split_ifs <;> rfl
  | _ => rfl

/-- Which requests to shut down are sent in an iteration. -/
theorem loop_shutdown (hg : g.Loose) (h : ClInv g c x) {l : LoopEnv N T S} (hl : LegalCl c x (.sys (.loop l)))
    {z : Sys N T K S} (hz : x.sys.loop g c l = .ok z) {s : S} {t : T} (hm : .shutdown s t ∈ z.srv.out) :
    .shutdown s t ∈ x.sys.srv.out ∨ s ∈ x.sys.srv.pending t ∨ (.acquire t, s) ∈ x.sys.queue := by
  obtain ⟨es, hrun⟩ := h.run
  have hl' : LegalEv g c x.sys (.loop l) := ⟨hl.1, hl.2.1⟩
  obtain ⟨ks, hsrun⟩ := hrun.srun
  obtain ⟨o, p, os, h1, tk, ho, ef, hh⟩ :=
    iteration_effect hg (hsrun.inv hg) (goodTick_of hrun hl') (loop_iteration hz)
  have hload := iteration_load hg (hsrun.inv hg) (goodTick_of hrun hl') (loop_iteration hz) t s
  unfold load at hload
  rw [ho, answers_append] at hload
  rw [ho, List.mem_append] at hm
  rcases hm with hm | hm
  · exact Or.inl hm
  · right
    have hpos : 0 < answers g t s os := by
      clear ho hload ef tk
      induction os with
      | nil => cases hm
      | cons o' os ih =>
        simp only [answers]
        rcases List.mem_cons.1 hm with rfl | hm
        · simp
        · have := ih hm; omega
    by_cases hp : s ∈ x.sys.srv.pending t
    · exact Or.inl hp
    · right
      rw [List.count_eq_zero.2 hp] at hload
      have hreq : 0 < requests t s [x.sys.tickOf l] := by omega
      simp only [requests, Sys.tickOf] at hreq
      cases hr : x.sys.recv.1 with
      | msg m s' =>
        rw [hr] at hreq
        cases m with
        | acquire t' =>
          by_cases hts : t' = t ∧ s' = s
          · obtain ⟨rfl, rfl⟩ := hts
            unfold Sys.recv at hr
            split at hr
            · cases hr
            · split at hr
              · cases hr
              · rename_i q e; cases hr; rw [e]; exact List.mem_cons_self
          · simp [hts] at hreq
        | _ => simp at hreq
      | closed => rw [hr] at hreq; simp at hreq
      | nothing => rw [hr] at hreq; simp at hreq

/-- Requests to shut down go to clients of the task. -/
theorem ClRun.shutdown (hg : g.Loose) (h : ClRun g c es x) :
    ∀ s t, .shutdown s t ∈ x.sys.srv.out → ∃ k, x.conn s = some k ∧ k.task = t := by
  induction h with
  | init h =>
    unfold Cluster.init at h
    split at h
    · cases h
    · next y hy =>
      cases h
      have hsrv : y.srv = Server.init g := by
        unfold Sys.init at hy
        dsimp only at hy
        split at hy
        · cases hy
        · cases hy; rfl
      intro s t hm
      dsimp only at hm
      rw [hsrv] at hm
      obtain ⟨os, e, ho⟩ := (recruit_frame (g := g) (⟨Sched.init g, [], [], [], false, false, fun _ => [], []⟩ :
        Server N T K S)).out
      rw [Server.init, e] at hm
      exact absurd (ho _ (by simpa using hm)) id
  | @step es x y e hr hl hs ih =>
    have hi := ClRun.inv hg hr
    intro s t hm
    have old : .shutdown s t ∈ x.sys.srv.out → ∃ k, y.conn s = some k ∧ k.task = t := by
      intro h1
      obtain ⟨k, h2, h3⟩ := ih s t h1
      obtain ⟨k', h4, h5⟩ := eff_of_step hg hi hl hs h2
      exact ⟨k', h4, h5.task.trans h3⟩
    by_cases hlp : ∃ l, e = .sys (.loop l)
    · obtain ⟨l, rfl⟩ := hlp
      simp only [Cluster.step] at hs
      split at hs
      · cases hs
      · next z hz =>
        cases hs
        rcases loop_shutdown hg hi hl hz hm with h1 | h1 | h1
        · exact old h1
        all_goals
          cases hk : x.conn s with
          | none =>
            obtain ⟨a1, a2, _⟩ := hi.fresh s hk
            first
            | exact absurd h1 (a2 t)
            | have : (.acquire t) ∈ queued s x.sys.queue := List.mem_filterMap.2 ⟨_, h1, by simp⟩
              rw [a1] at this; cases this
          | some k =>
            have hok := hi.conn s k hk
            have ht : t = k.task := by
              first
              | exact hok.acq t (List.mem_append_left _ (List.mem_filterMap.2 ⟨_, h1, by simp⟩))
              | by_contra hc; exact hok.other t hc h1
            refine ⟨if s ∈ x.sys.closed then k else { k with
              down := k.down ++ (z.srv.out.drop x.sys.srv.out.length).filterMap (downOf s) }, ?_, ?_⟩
            · simp only [Cluster.deliver, hk, Option.map_some]
            · split_ifs <;> exact ht.symm
    · have hsame : y.sys.srv = x.sys.srv := by
        cases e with
        | connect => cases hs; rfl
        | client => cases hs; rfl
        | kill => cases hs; rfl
        | breaks => cases hs; rfl
        | down => cases hs; rfl
        | up s' =>
          cases hs
          unfold Cluster.up
          split
          · rfl
          · split
            · rfl
            · dsimp only
              split <;> rfl
        | sys e =>
          cases e with
          | arrive m s => exact absurd hl id
          | close s' => simp only [Cluster.step, Sys.step] at hs; cases hs; rfl
          | proc p => simp only [Cluster.step, Sys.step] at hs; cases hs; rfl
          | loop l => exact absurd ⟨l, rfl⟩ hlp
      rw [hsame] at hm
      exact old hm

/-! ### Processes whose connection does not fail -/

theorem send_ok {c : TcpClient N T} (h1 : c.excs = []) (h2 : c.connected = true) (h3 : c.writable = true)
    (m : ClientMsg N T) : c.send m = .ok { c with outbox := c.outbox ++ [m] } := by
  simp [TcpClient.send, TcpClient.checkErrors, h1, h2, h3]

/-- What holds of a connection that did not fail. -/
structure Sound (g : DGraph N T K) (c : SysConf T) (es : List (ClEv N T S)) (out : List (Out N T S)) (s : S)
    (k : Conn N T) : Prop where
  excs : k.tcp.excs = []
  writable : k.tcp.writable = true
  conn : k.tcp.connected = false → k.gone = true
  failing : ∀ n e, k.phase = .failing n e → e = none
  asked : .requestShutdown ∈ unread k ∨ Parting k → .shutdown s k.task ∈ out
  ended : ∀ r, k.phase = .ended r → (r = none ∧ k.gone = true) ∨
    ∃ e es₁ body es₂, ∃ y : Cluster N T K S, ∃ n, r = some e ∧ es = es₁ ++ .client s body :: es₂ ∧ ClRun g c es₁ y ∧
      WorksOn y s n ∧ body.raised = some e ∧ e.isException = false

theorem sound_step {k : Conn N T} (body : BodyEnd) (h1 : k.tcp.excs = []) (h2 : k.tcp.writable = true)
    (h3 : k.phase ≠ .leaving → k.tcp.connected = true) (h4 : ∀ m ∈ k.tcp.inbox, m ≠ .other)
    (h5 : ∀ n e, k.phase = .failing n e → e = none) (h6 : ¬ Phase.Over k.phase) :
    (k.step body).tcp.excs = [] ∧ (k.step body).tcp.writable = true ∧
    (k.step body).tcp.connected = k.tcp.connected ∧
    (∀ n e, (k.step body).phase = .failing n e → e = none) ∧
    (∀ m ∈ (k.step body).tcp.inbox, m ∈ k.tcp.inbox) ∧
    ∀ r, (k.step body).phase = .ended r → (r = none ∧ k.phase = .leaving ∧ k.tcp.connected = false) ∨
      ∃ e n, r = some e ∧ k.phase = .working n ∧ body.raised = some e ∧ e.isException = false := by
  have hfin : k.tcp.connected = true → ∀ (b : N) st (e : Option ClientErr),
      k.exits (Client.finish k.tcp b st e) =
        { k with
          tcp := { k.tcp with
            outbox := k.tcp.outbox ++ [.release b (if st ≠ .enum .success then .enum .failed else st)] }
          phase := match e with | none => .idle | some e => .ended (some e) } := by
    intro hc b st e
    unfold Client.finish
    dsimp only
    rw [send_ok h1 hc h2]
    unfold Conn.exits
    cases e <;> rfl
  cases hph : k.phase with
  | idle =>
    have hc := h3 (by rw [hph]; simp)
    simp only [Conn.step, hph, send_ok h1 hc h2]
    exact ⟨h1, h2, trivial, fun n e h => (by cases h), fun m h => h, fun r h => (by cases h)⟩
  | waiting =>
    have hc := h3 (by rw [hph]; simp)
    simp only [Conn.step, hph]
    rcases hi : k.tcp.inbox with _ | ⟨m, r⟩
    · have hm : k.tcp.getMessage = .ok (none, k.tcp) := by
        simp [TcpClient.getMessage, TcpClient.checkErrors, h1, hc, hi]
      rw [hm]
      exact ⟨h1, h2, rfl, fun n e h => (by cases h), fun m h => (by rw [← hi]; exact h), fun r h => (by cases h)⟩
    · have hm : k.tcp.getMessage = .ok (some m, { k.tcp with inbox := r }) := by
        simp [TcpClient.getMessage, TcpClient.checkErrors, h1, hc, hi]
      rw [hm]
      have hmo := h4 m (by rw [hi]; exact List.mem_cons_self)
      cases m with
      | other => exact absurd rfl hmo
      | sendBlock b =>
        exact ⟨h1, h2, rfl, fun n e h => (by cases h), fun m h => List.mem_cons_of_mem _ h,
          fun r h => (by cases h)⟩
      | requestShutdown =>
        dsimp only
        rw [hc, h2]
        exact ⟨h1, rfl, rfl, fun n e h => (by cases h), fun m h => List.mem_cons_of_mem _ h,
          fun r h => (by cases h)⟩
  | leaving =>
    simp only [Conn.step, hph]
    split_ifs with hc
    · exact ⟨h1, h2, rfl, fun n e h => (by rw [hph] at h; cases h), fun m h => h, fun r h => (by rw [hph] at h; cases h)⟩
    · refine ⟨h1, h2, rfl, fun n e h => (by cases h), fun m h => h, fun r h => ?_⟩
      cases h
      exact Or.inl ⟨rfl, trivial, by simpa using hc⟩
  | working n =>
    have hc := h3 (by rw [hph]; simp)
    simp only [Conn.step, hph]
    cases hb : body.raised with
    | none =>
      dsimp only
      rw [hfin hc]
      exact ⟨h1, h2, rfl, fun n e h => (by cases h), fun m h => h, fun r h => (by cases h)⟩
    | some e =>
      dsimp only
      split_ifs with he
      · rw [send_ok h1 hc h2]
        exact ⟨h1, h2, rfl, fun n e h => (by cases h; rfl), fun m h => h, fun r h => (by cases h)⟩
      · rw [hfin hc]
        refine ⟨h1, h2, rfl, fun n e h => (by cases h), fun m h => h, fun r h => ?_⟩
        cases h
        exact Or.inr ⟨e, n, rfl, rfl, rfl, by simpa using he⟩
  | failing n e =>
    have hc := h3 (by rw [hph]; simp)
    obtain rfl := h5 n e hph
    simp only [Conn.step, hph]
    rw [hfin hc]
    exact ⟨h1, h2, rfl, fun n e h => (by cases h), fun m h => h, fun r h => (by cases h)⟩
  | ended e => rw [hph] at h6; exact absurd trivial h6
  | killed => rw [hph] at h6; exact absurd trivial h6

/-- A request to shut down on its way was sent by the server. -/
theorem downOf_shutdown {s : S} {os : List (Out N T S)} (h : .arrives .requestShutdown ∈ os.filterMap (downOf s)) :
    ∃ t, .shutdown s t ∈ os := by
  obtain ⟨o, h1, h2⟩ := List.mem_filterMap.1 h
  cases o with
  | shutdown s' t =>
    simp only [downOf] at h2
    split_ifs at h2 with hs
    subst hs
    exact ⟨t, h1⟩
  | send s' n => simp only [downOf] at h2; split_ifs at h2; cases h2
  | _ => cases h2

theorem Sound.eff (hg : g.Loose) (hr : ClRun g c es x) {s : S} {k k' : Conn N T} {e : ClEv N T S}
    (hk : x.conn s = some k) (hout : ∀ o ∈ x.sys.srv.out, o ∈ y.sys.srv.out)
    (hsh : ∀ t, .shutdown s t ∈ y.sys.srv.out → k'.task = t)
    (h : Sound g c es x.sys.srv.out s k) (hb : ∀ v, e ≠ .breaks s v) (he : Eff g c x y s k e k') :
    Sound g c (es ++ [e]) y.sys.srv.out s k' := by
  have hi := ClRun.inv hg hr
  have hbye := ClRun.bye hg hr s k hk
  have hok := hi.conn s k hk
  have hend : ∀ r, k.phase = .ended r → (r = none ∧ k.gone = true) ∨
      ∃ e' es₁ body es₂, ∃ y : Cluster N T K S, ∃ n, r = some e' ∧ es ++ [e] = es₁ ++ .client s body :: es₂ ∧
        ClRun g c es₁ y ∧ WorksOn y s n ∧ body.raised = some e' ∧ e'.isException = false := by
    intro r hrr
    rcases h.ended r hrr with h1 | ⟨e', es₁, body, es₂, y, n, h1, h2, h3⟩
    · exact Or.inl h1
    · exact Or.inr ⟨e', es₁, body, es₂ ++ [e], y, n, h1, by rw [h2]; simp, h3⟩
  cases he with
  | client body h1 h2 =>
    have hconn : k.phase ≠ .leaving → k.tcp.connected = true := by
      intro hne
      by_contra hc
      rcases hbye.phase (Or.inr (Or.inr (h.conn (by simpa using hc)))) with h3 | h3
      · exact hne h3
      · exact h2 h3
    obtain ⟨a1, a2, a3, a4, a5, a6⟩ := sound_step body h.excs h.writable hconn
      (fun m hm => (hok.block m (List.mem_append_left _ hm)).1) h.failing h2
    have hgd : (k.step body).gone = k.gone ∧ (k.step body).down = k.down ∧
        (Parting (k.step body) → Parting k ∨ .requestShutdown ∈ unread k) := by
      by_cases hp : Parting k
      · rcases step_parted (body := body) (hbye.phase hp) with e | ⟨_, e⟩
        · rw [e]; exact ⟨rfl, rfl, fun h => Or.inl h⟩
        · rw [e]; exact ⟨rfl, rfl, fun _ => Or.inl hp⟩
      · obtain ⟨b1, b2, b3⟩ := step_parting (body := body) hp
        refine ⟨b1, b2, fun h => Or.inr ?_⟩
        obtain ⟨_, _, r, _, b4⟩ := b3 h
        unfold unread
        rw [b4]
        simp
    obtain ⟨b1, b2, b3⟩ := hgd
    have hun : ∀ m ∈ unread (k.step body), m ∈ unread k := by
      intro m hm
      unfold unread at hm ⊢
      rw [b2] at hm
      rcases List.mem_append.1 hm with hm | hm
      · exact List.mem_append_left _ (a5 m hm)
      · exact List.mem_append_right _ hm
    refine ⟨a1, a2, by rw [a3, b1]; exact h.conn, a4, ?_, ?_⟩
    · rw [step_task, h1]
      rintro (h3 | h3)
      · exact h.asked (Or.inl (hun _ h3))
      · exact h.asked ((b3 h3).symm)
    · intro r hrr
      rcases a6 r hrr with ⟨c1, c2, c3⟩ | ⟨e', n, c1, c2, c3, c4⟩
      · exact Or.inl ⟨c1, by rw [b1]; exact h.conn c3⟩
      · exact Or.inr ⟨e', es, body, [], x, n, c1, rfl, hr, ⟨k, hk, c2⟩, c3, c4⟩
  | kill h1 =>
    refine ⟨h.excs, h.writable, h.conn, fun n e h => (by cases h), ?_, fun r h => (by cases h)⟩
    rintro (h3 | h3 | h3)
    · exact hout _ (h.asked (Or.inl h3))
    · cases h3
    · exact hout _ (h.asked (Or.inr (Or.inr h3)))
  | breaks v => exact absurd rfl (hb v)
  | down v r hd h1 =>
    have hv := hok.downs v (by rw [hd]; exact List.mem_cons_self)
    rcases hv with rfl | ⟨m, rfl⟩
    · have hgone : k.gone = true := hbye.ack (by rw [hd]; exact List.mem_cons_self)
      refine ⟨h.excs, h.writable, fun _ => hgone, h.failing, ?_, hend⟩
      rintro (h3 | h3 | h3)
      · refine hout _ (h.asked (Or.inl ?_))
        unfold unread at h3 ⊢
        rw [hd]
        exact h3
      · exact hout _ (h.asked (Or.inr (Or.inl h3)))
      · exact hout _ (h.asked (Or.inr (Or.inr h3)))
    · have hx : (k.tcp.net (.arrives m)).excs = k.tcp.excs ∧ (k.tcp.net (.arrives m)).writable = k.tcp.writable ∧
          (k.tcp.net (.arrives m)).connected = k.tcp.connected ∧
          (∀ z ∈ (k.tcp.net (.arrives m)).inbox, z ∈ k.tcp.inbox ∨ z = m) := by
        simp only [TcpClient.net]
        split_ifs
        · exact ⟨rfl, rfl, rfl, fun z hz => by simpa using hz⟩
        · exact ⟨rfl, rfl, rfl, fun z hz => Or.inl hz⟩
      obtain ⟨x1, x2, x3, x4⟩ := hx
      refine ⟨by rw [x1]; exact h.excs, by rw [x2]; exact h.writable, by rw [x3]; exact h.conn, h.failing, ?_, hend⟩
      rintro (h3 | h3 | h3 | h3)
      · refine hout _ (h.asked (Or.inl ?_))
        unfold unread at h3 ⊢
        rw [hd]
        rcases List.mem_append.1 h3 with h3 | h3
        · rcases x4 _ h3 with h4 | h4
          · exact List.mem_append_left _ h4
          · exact List.mem_append_right _ (by simp [h4])
        · exact List.mem_append_right _ (by simp only [List.filterMap_cons]; exact List.mem_cons_of_mem _ h3)
      · exact hout _ (h.asked (Or.inr (Or.inl h3)))
      · rw [show ({ k with tcp := k.tcp.net (.arrives m), down := r } : Conn N T).tcp.outbox = k.tcp.outbox from
          net_frame _ _] at h3
        exact hout _ (h.asked (Or.inr (Or.inr (Or.inl h3))))
      · exact hout _ (h.asked (Or.inr (Or.inr (Or.inr h3))))
  | up m m' r ho hm h1 =>
    refine ⟨h.excs, h.writable, h.conn, h.failing, ?_, hend⟩
    rintro (h3 | h3 | h3 | h3)
    · exact hout _ (h.asked (Or.inl h3))
    · exact hout _ (h.asked (Or.inr (Or.inl h3)))
    · exact hout _ (h.asked (Or.inr (Or.inr (Or.inl (by rw [ho]; exact List.mem_cons_of_mem _ h3)))))
    · exact hout _ (h.asked (Or.inr (Or.inr (Or.inr h3))))
  | bye r ho h1 =>
    have hp : Parting k := Or.inr (Or.inl (by rw [ho]; exact List.mem_cons_self))
    refine ⟨h.excs, h.writable, fun _ => rfl, h.failing, fun _ => hout _ (h.asked (Or.inr hp)), ?_⟩
    intro r hrr
    rcases hend r hrr with h1 | h1
    · exact Or.inl ⟨h1.1, rfl⟩
    · exact Or.inr h1
  | loop l os hl hz ho =>
    by_cases hcl : s ∈ x.sys.closed
    · rw [if_pos hcl]
      exact ⟨h.excs, h.writable, h.conn, h.failing, fun h3 => hout _ (h.asked h3), hend⟩
    · rw [if_neg hcl] at hsh ⊢
      refine ⟨h.excs, h.writable, h.conn, h.failing, ?_, hend⟩
      rintro (h3 | h3)
      · unfold unread at h3
        simp only [List.filterMap_append, ← List.append_assoc] at h3
        rcases List.mem_append.1 h3 with h3 | h3
        · exact hout _ (h.asked (Or.inl h3))
        · obtain ⟨v, v1, v2⟩ := List.mem_filterMap.1 h3
          have hv : v = .arrives .requestShutdown := by
            cases v <;> simp_all
          rw [hv] at v1
          obtain ⟨t, ht⟩ := downOf_shutdown v1
          have hin : .shutdown s t ∈ y.sys.srv.out := by rw [ho]; exact List.mem_append_right _ ht
          have := hsh t hin
          rw [this]
          exact hin
      · exact hout _ (h.asked (Or.inr h3))
  | other _ q h1 h2 h3 h4 =>
    exact ⟨h.excs, h.writable, h.conn, h.failing, fun h3 => hout _ (h.asked h3), hend⟩

theorem Eff.out {s : S} {k k' : Conn N T} {e : ClEv N T S} (h : Eff g c x y s k e k') :
    ∀ o ∈ x.sys.srv.out, o ∈ y.sys.srv.out := by
  cases h with
  | client _ h => rw [h]; exact fun _ h => h
  | kill h => rw [h]; exact fun _ h => h
  | breaks _ h => rw [h]; exact fun _ h => h
  | down _ _ _ h => rw [h]; exact fun _ h => h
  | up _ _ _ _ _ h => rw [h]; exact fun _ h => h
  | bye _ _ h => rw [h]; exact fun _ h => h
  | loop _ _ _ _ h => rw [h]; exact fun _ h => List.mem_append_left _ h
  | other _ _ h => rw [h]; exact fun _ h => h

theorem ClRun.sound (hg : g.Loose) (h : ClRun g c es x) {s : S} (hs : ∀ v, .breaks s v ∉ es) {k : Conn N T}
    (hk : x.conn s = some k) : Sound g c es x.sys.srv.out s k := by
  induction h generalizing k with
  | init h =>
    unfold Cluster.init at h
    split at h
    · cases h
    · cases h; cases hk
  | @step es x y e hr hl hst ih =>
    have hr' : ClRun g c (es ++ [e]) y := .step e hr hl hst
    cases hk0 : x.conn s with
    | some k0 =>
      obtain ⟨k1, h1, h2⟩ := eff_of_step hg (ClRun.inv hg hr) hl hst hk0
      rw [h1] at hk
      cases hk
      refine Sound.eff hg hr hk0 h2.out ?_ (ih (fun v hv => hs v (List.mem_append_left _ hv)) hk0) ?_ h2
      · intro t ht
        obtain ⟨k2, a1, a2⟩ := ClRun.shutdown hg hr' s t ht
        rw [h1] at a1
        cases a1
        exact a2
      · rintro v rfl
        exact hs v (List.mem_append_right _ List.mem_cons_self)
    | none =>
      obtain ⟨t, w, rfl⟩ := connect_of_none hst hk0 hk
      cases hst
      simp only [upd, if_true] at hk
      cases hk
      refine ⟨rfl, rfl, fun h => (by cases h), fun n e h => (by cases h), ?_, fun r h => (by cases h)⟩
      rintro (h | h | h | h) <;> cases h

/-! ### Errors that end a process -/

/-- Where the exception of a process can come from. -/
structure Errs (es : List (ClEv N T S)) (s : S) (k : Conn N T) : Prop where
  excs : ∀ e ∈ k.tcp.excs, .breaks s (.fails e) ∈ es
  failing : ∀ n e, k.phase = .failing n (some e) → e = .streamClosed ∨ e = .notConnected ∨ .breaks s (.fails e) ∈ es
  ended : ∀ e, k.phase = .ended (some e) → e = .streamClosed ∨ e = .notConnected ∨ .breaks s (.fails e) ∈ es ∨
    ∃ body, .client s body ∈ es ∧ body.raised = some e ∧ e.isException = false

theorem send_err {c c' : TcpClient N T} {m : ClientMsg N T} {e : ClientErr} (h : c.send m = .error (e, c')) :
    (e ∈ c.excs ∨ e = .notConnected ∨ e = .streamClosed) ∧ ∀ z ∈ c'.excs, z ∈ c.excs := by
  unfold TcpClient.send TcpClient.checkErrors at h
  rcases he : c.excs with _ | ⟨e', r⟩
  · rw [he] at h
    dsimp only at h
    split_ifs at h
    · cases h; exact ⟨Or.inr (Or.inl rfl), by rw [he]; exact fun _ h => h⟩
    · cases h; exact ⟨Or.inr (Or.inr rfl), by rw [he]; exact fun _ h => h⟩
  · rw [he] at h
    cases h
    exact ⟨Or.inl List.mem_cons_self, fun z hz => List.mem_cons_of_mem _ hz⟩

theorem get_err {c c' : TcpClient N T} {e : ClientErr} (h : c.getMessage = .error (e, c')) :
    (e ∈ c.excs ∨ e = .notConnected) ∧ ∀ z ∈ c'.excs, z ∈ c.excs := by
  unfold TcpClient.getMessage TcpClient.checkErrors at h
  rcases he : c.excs with _ | ⟨e', r⟩
  · rw [he] at h
    dsimp only at h
    split_ifs at h
    · cases h; exact ⟨Or.inr rfl, by rw [he]; exact fun _ h => h⟩
    · split at h <;> cases h
  · rw [he] at h
    cases h
    exact ⟨Or.inl List.mem_cons_self, fun z hz => List.mem_cons_of_mem _ hz⟩

theorem Errs.mono {es es' : List (ClEv N T S)} {s : S} {k : Conn N T} (h : Errs es s k) (hs : ∀ e ∈ es, e ∈ es') :
    Errs es' s k where
  excs := fun e he => hs _ (h.excs e he)
  failing := fun n e he => (h.failing n e he).imp id (Or.imp id (hs _))
  ended := fun e he => (h.ended e he).imp id (Or.imp id (Or.imp (hs _)
    (fun ⟨b, h1, h2⟩ => ⟨b, hs _ h1, h2⟩)))

/-- The end of the `with` statement. -/
theorem Errs.exits {es : List (ClEv N T S)} {s : S} {k : Conn N T} (h : Errs es s k) {n : N} {st : StatusVal}
    {e : Option ClientErr} (he : ∀ e', e = some e' → e' = .streamClosed ∨ e' = .notConnected ∨
      .breaks s (.fails e') ∈ es ∨ ∃ body, .client s body ∈ es ∧ body.raised = some e' ∧ e'.isException = false) :
    Errs es s (k.exits (Client.finish k.tcp n st e)) := by
  unfold Client.finish
  dsimp only
  cases hs : k.tcp.send (.release n (if st ≠ .enum .success then .enum .failed else st)) with
  | error p =>
    obtain ⟨e', c'⟩ := p
    obtain ⟨h1, h2⟩ := send_err hs
    refine ⟨fun z hz => h.excs z (h2 z hz), fun n e hp => (by cases hp), fun e hp => ?_⟩
    cases hp
    rcases h1 with h1 | h1 | h1
    · exact Or.inr (Or.inr (Or.inl (h.excs _ h1)))
    · exact Or.inr (Or.inl h1)
    · exact Or.inl h1
  | ok c' =>
    have hc : c'.excs = k.tcp.excs := by
      rcases send_cases k.tcp (.release n (if st ≠ .enum .success then .enum .failed else st)) with
        ⟨e', c1, h1, _⟩ | ⟨h1, _⟩
      · rw [h1] at hs; cases hs
      · rw [h1] at hs; cases hs; rfl
    cases e with
    | none => exact ⟨fun z hz => h.excs z (hc ▸ hz), fun n e hp => (by cases hp), fun e hp => (by cases hp)⟩
    | some e =>
      refine ⟨fun z hz => h.excs z (hc ▸ hz), fun n e hp => (by cases hp), fun e hp => ?_⟩
      cases hp
      exact he _ rfl

theorem Errs.step {s : S} {k : Conn N T} {body : BodyEnd} (h0 : Errs es s k)
    (hm : ∀ m ∈ k.tcp.inbox, m ≠ .other) : Errs (es ++ [.client s body]) s (k.step body) := by
  have h := h0.mono (es' := es ++ [.client s body]) (fun e he => List.mem_append_left _ he)
  cases hph : k.phase with
  | idle =>
    simp only [Conn.step, hph]
    cases hs : k.tcp.send (.acquire k.task) with
    | error p =>
      obtain ⟨e', c'⟩ := p
      obtain ⟨h1, h2⟩ := send_err hs
      refine ⟨fun z hz => h.excs z (h2 z hz), fun n e hp => (by cases hp), fun e hp => ?_⟩
      cases hp
      rcases h1 with h1 | h1 | h1
      · exact Or.inr (Or.inr (Or.inl (h.excs _ h1)))
      · exact Or.inr (Or.inl h1)
      · exact Or.inl h1
    | ok c' =>
      rcases send_cases k.tcp (.acquire k.task) with ⟨e', c1, h1, _⟩ | ⟨h1, _⟩
      · rw [h1] at hs; cases hs
      · rw [h1] at hs
        cases hs
        exact ⟨h.excs, fun n e hp => (by cases hp), fun e hp => (by cases hp)⟩
  | waiting =>
    simp only [Conn.step, hph]
    rcases get_cases k.tcp with ⟨e', c', h1, _⟩ | ⟨hc, ⟨hi, h1⟩ | ⟨m, r, hi, h1⟩⟩
    · obtain ⟨a1, a2⟩ := get_err h1
      rw [h1]
      have hx : ∀ e, e' = e → e = .streamClosed ∨ e = .notConnected ∨ .breaks s (.fails e) ∈ es ++ [.client s body] := by
        rintro e rfl
        rcases a1 with a1 | a1
        · exact Or.inr (Or.inr (h.excs _ a1))
        · exact Or.inr (Or.inl a1)
      have hy : ∀ e, e' = e → e = .streamClosed ∨ e = .notConnected ∨ .breaks s (.fails e) ∈ es ++ [.client s body] ∨
          ∃ b, .client s b ∈ es ++ [.client s body] ∧ b.raised = some e ∧ e.isException = false :=
        fun e he => (hx e he).imp id (Or.imp id Or.inl)
      cases e' with
      | streamClosed =>
        exact ⟨fun z hz => h.excs z (a2 z hz), fun n e hp => (by cases hp), fun e hp => (by cases hp)⟩
      | _ =>
        exact ⟨fun z hz => h.excs z (a2 z hz), fun n e hp => (by cases hp),
          fun e hp => (by cases hp; exact hy _ rfl)⟩
    · rw [h1]
      exact ⟨h.excs, fun n e hp => (by cases hp), fun e hp => (by cases hp)⟩
    · rw [h1]
      have hmo := hm m (by rw [hi]; exact List.mem_cons_self)
      cases m with
      | other => exact absurd rfl hmo
      | sendBlock b => exact ⟨h.excs, fun n e hp => (by cases hp), fun e hp => (by cases hp)⟩
      | requestShutdown =>
        dsimp only
        split_ifs
        · exact ⟨h.excs, fun n e hp => (by cases hp), fun e hp => (by cases hp)⟩
        · exact ⟨h.excs, fun n e hp => (by cases hp), fun e hp => (by cases hp; exact Or.inl rfl)⟩
        · exact ⟨h.excs, fun n e hp => (by cases hp), fun e hp => (by cases hp)⟩
  | leaving =>
    simp only [Conn.step, hph]
    split_ifs
    · exact h
    · exact ⟨h.excs, fun n e hp => (by cases hp), fun e hp => (by cases hp)⟩
  | working n =>
    simp only [Conn.step, hph]
    cases hb : body.raised with
    | none => exact h.exits (fun e' he => (by cases he))
    | some e =>
      dsimp only
      split_ifs with hex
      · cases hs : k.tcp.send (.blockFailed n e) with
        | error p =>
          obtain ⟨e', c'⟩ := p
          obtain ⟨h1, h2⟩ := send_err hs
          refine ⟨fun z hz => h.excs z (h2 z hz), fun n e hp => ?_, fun e hp => (by cases hp)⟩
          cases hp
          rcases h1 with h1 | h1 | h1
          · exact Or.inr (Or.inr (h.excs _ h1))
          · exact Or.inr (Or.inl h1)
          · exact Or.inl h1
        | ok c' =>
          rcases send_cases k.tcp (.blockFailed n e) with ⟨e', c1, h1, _⟩ | ⟨h1, _⟩
          · rw [h1] at hs; cases hs
          · rw [h1] at hs
            cases hs
            exact ⟨h.excs, fun n e hp => (by cases hp), fun e hp => (by cases hp)⟩
      · refine h.exits (fun e' he => ?_)
        cases he
        exact Or.inr (Or.inr (Or.inr ⟨body, List.mem_append_right _ List.mem_cons_self, hb, by simpa using hex⟩))
  | failing n e =>
    simp only [Conn.step, hph]
    refine h.exits (fun e' he => ?_)
    subst he
    exact (h.failing n e' hph).imp id (Or.imp id Or.inl)
  | ended e => simp only [Conn.step, hph]; exact h
  | killed => simp only [Conn.step, hph]; exact h

theorem Errs.eff (hg : g.Loose) (hr : ClRun g c es x) {s : S} {k k' : Conn N T} {e : ClEv N T S}
    (hk : x.conn s = some k) (h0 : Errs es s k) (he : Eff g c x y s k e k') : Errs (es ++ [e]) s k' := by
  have h := h0.mono (es' := es ++ [e]) (fun e he => List.mem_append_left _ he)
  have hok := (ClRun.inv hg hr).conn s k hk
  cases he with
  | client body h1 h2 => exact h0.step (fun m hm => (hok.block m (List.mem_append_left _ hm)).1)
  | kill h1 => exact ⟨h.excs, fun n e hp => (by cases hp), fun e hp => (by cases hp)⟩
  | breaks v h1 =>
    refine ⟨?_, h.failing, h.ended⟩
    intro z hz
    cases v with
    | fails e =>
      simp only [TcpClient.net] at hz
      split_ifs at hz
      · rcases List.mem_append.1 hz with hz | hz
        · exact h.excs z hz
        · rw [List.mem_singleton.1 hz]; exact List.mem_append_right _ List.mem_cons_self
      · exact h.excs z hz
    | arrives m =>
      simp only [TcpClient.net] at hz
      split_ifs at hz <;> exact h.excs z hz
    | ack => exact h.excs z hz
    | writeFails => exact h.excs z hz
  | down v r hd h1 =>
    refine ⟨?_, h.failing, h.ended⟩
    intro z hz
    rcases hok.downs v (by rw [hd]; exact List.mem_cons_self) with rfl | ⟨m, rfl⟩
    · exact h.excs z hz
    · simp only [TcpClient.net] at hz
      split_ifs at hz <;> exact h.excs z hz
  | up m m' r ho hm h1 => exact ⟨h.excs, h.failing, h.ended⟩
  | bye r ho h1 => exact ⟨h.excs, h.failing, h.ended⟩
  | loop l os hl hz ho =>
    split_ifs
    · exact h
    · exact ⟨h.excs, h.failing, h.ended⟩
  | other => exact h

theorem ClRun.errs (hg : g.Loose) (h : ClRun g c es x) {s : S} {k : Conn N T} (hk : x.conn s = some k) :
    Errs es s k := by
  induction h generalizing k with
  | init h =>
    unfold Cluster.init at h
    split at h
    · cases h
    · cases h; cases hk
  | @step es x y e hr hl hst ih =>
    cases hk0 : x.conn s with
    | some k0 =>
      obtain ⟨k1, h1, h2⟩ := eff_of_step hg (ClRun.inv hg hr) hl hst hk0
      rw [h1] at hk
      cases hk
      exact Errs.eff hg hr hk0 (ih hk0) h2
    | none =>
      obtain ⟨t, w, rfl⟩ := connect_of_none hst hk0 hk
      cases hst
      simp only [upd, if_true] at hk
      cases hk
      exact ⟨fun e h => (by cases h), fun n e h => (by cases h), fun r h => (by cases h)⟩

end Verif
