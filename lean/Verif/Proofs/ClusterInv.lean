import Verif.Proofs.ClusterNet

/-! # Invariants of the server with its workers -/

set_option linter.unusedSectionVars false

namespace Verif

open Spec

variable {N T K S : Type} [DecidableEq N] [DecidableEq T] [DecidableEq K] [DecidableEq S]
  {g : DGraph N T K} {c : SysConf T} {es : List (ClEv N T S)} {x y : Cluster N T K S}

/-- What holds in all executions. -/
structure ClInv (g : DGraph N T K) (c : SysConf T) (x : Cluster N T K S) : Prop where
  run : ∃ es, SysRun g c Anything es x.sys
  conn : ∀ s k, x.conn s = some k → ConnOK g c.cfg (· ∈ x.sys.closed) s k (queued s x.sys.queue ++ underway k)
    x.sys.srv.pending (holder x.sys.srv.out)
  fresh : ∀ s, x.conn s = none → queued s x.sys.queue = [] ∧ (∀ t, s ∉ x.sys.srv.pending t) ∧
    ∀ n, holder x.sys.srv.out n ≠ some s

theorem queued_append (s : S) (a b : List (Msg N T × S)) : queued s (a ++ b) = queued s a ++ queued s b :=
  List.filterMap_append

theorem ClInv.init (h : Cluster.init g c = .ok x) : ClInv g c x := by
  unfold Cluster.init at h
  split at h
  · cases h
  · next y hy =>
    cases h
    have hsrv : y.srv = Server.init g ∧ y.queue = [] := by
      unfold Sys.init at hy
      dsimp only at hy
      split at hy
      · cases hy
      · cases hy; exact ⟨rfl, rfl⟩
    refine ⟨⟨[], .init hy⟩, fun s k hk => (by cases hk), ?_⟩
    intro s _
    refine ⟨by dsimp only; rw [hsrv.2]; rfl, ?_, ?_⟩
    · intro t
      dsimp only
      rw [hsrv.1, show (Server.init g : Server N T K S).pending = _ from (recruit_frame _).pending]
      simp
    · intro n
      dsimp only
      rw [hsrv.1, show holder (Server.init g : Server N T K S).out n = _ from (recruit_frame _).holder n]
      simp [holder]

/-- Only connection `s` changes, and nothing in the server. -/
theorem ClInv.modify (h : ClInv g c x) (s : S) (f : Conn N T → Conn N T)
    (hf : ∀ k, x.conn s = some k →
      ConnOK g c.cfg (· ∈ x.sys.closed) s (f k) (queued s x.sys.queue ++ underway (f k))
        x.sys.srv.pending (holder x.sys.srv.out)) : ClInv g c (x.modify s f) := by
  refine ⟨h.run, ?_, ?_⟩
  · intro s' k hk
    by_cases hs : s' = s
    · subst hs
      simp only [Cluster.modify, upd, if_true] at hk
      obtain ⟨k0, h1, rfl⟩ := Option.map_eq_some_iff.1 hk
      exact hf k0 h1
    · simp only [Cluster.modify, upd, hs, if_false] at hk
      exact h.conn s' k hk
  · intro s' hk
    by_cases hs : s' = s
    · subst hs
      simp only [Cluster.modify, upd, if_true] at hk
      exact h.fresh s' (Option.map_eq_none_iff.1 hk)
    · simp only [Cluster.modify, upd, hs, if_false] at hk
      exact h.fresh s' hk

theorem ClInv.connect (h : ClInv g c x) {s : S} {t : T} {w : Nat} (hs : x.conn s = none)
    (ht : t ∈ c.cfg.served) : ClInv g c { x with conn := upd x.conn s (some (Conn.new t w)) } := by
  obtain ⟨n1, n2, n3⟩ := h.fresh s hs
  refine ⟨h.run, ?_, ?_⟩
  · intro s' k hk
    by_cases hs' : s' = s
    · subst hs'
      simp only [upd, if_true] at hk
      cases hk
      dsimp only
      rw [n1]
      refine ⟨ht, ?_, ?_, ?_, ?_, ?_, ?_, fun _ _ => n2 _, ?_, ?_, ?_, fun n hn => absurd hn (n3 n)⟩
      · intro m hm; cases hm
      · intro m hm; cases hm
      · intro m hm; cases hm
      · intro m hm; cases hm
      · intro m hm; cases hm
      · intro m e hm; cases hm
      · intro hm; cases hm
      · intro hm; cases hm
      · intro _
        change NoAcq [] ∧ s' ∉ x.sys.srv.pending t ∧ _
        exact ⟨fun t ht => (by cases ht), n2 _, rfl⟩
    · simp only [upd, hs', if_false] at hk
      exact h.conn s' k hk
  · intro s' hk
    by_cases hs' : s' = s
    · subst hs'
      simp [upd] at hk
    · simp only [upd, hs', if_false] at hk
      exact h.fresh s' hk

theorem ClInv.up (h : ClInv g c x) {s : S} (hs : s ∉ x.sys.closed) : ClInv g c (x.up s) := by
  unfold Cluster.up
  split
  · exact h
  · next k hk =>
    split
    · exact h
    · next m r ho =>
      have hok := h.conn s k hk
      dsimp only
      split
      · next m' hm =>
        obtain ⟨h1, h2⟩ := hok.up ho hm
        obtain ⟨es, hrun⟩ := h.run
        refine ⟨⟨_, SysRun.step (.arrive m' s) hrun ⟨hs, h1⟩ trivial rfl⟩, ?_, ?_⟩
        · intro s' k' hk'
          dsimp only at hk' ⊢
          by_cases hs' : s' = s
          · subst hs'
            simp only [upd, if_true] at hk'
            cases hk'
            have : queued s' (x.sys.queue ++ [(m', s')]) = queued s' x.sys.queue ++ [m'] := by
              rw [queued_append]; simp [queued]
            rw [this]
            exact h2
          · simp only [upd, hs', if_false] at hk'
            have : queued s' (x.sys.queue ++ [(m', s)]) = queued s' x.sys.queue := by
              have hne : ¬ s = s' := fun e => hs' e.symm
              rw [queued_append]
              simp [queued, hne]
            rw [this]
            exact h.conn s' k' hk'
        · intro s' hk'
          dsimp only at hk' ⊢
          by_cases hs' : s' = s
          · subst hs'
            simp [upd] at hk'
          · simp only [upd, hs', if_false] at hk'
            have : queued s' (x.sys.queue ++ [(m', s)]) = queued s' x.sys.queue := by
              have hne : ¬ s = s' := fun e => hs' e.symm
              rw [queued_append]
              simp [queued, hne]
            rw [this]
            exact h.fresh s' hk'
      · next hm =>
        have h2 := hok.goodbye ho hm
        refine ⟨h.run, ?_, ?_⟩
        · intro s' k' hk'
          by_cases hs' : s' = s
          · subst hs'
            simp only [upd, if_true] at hk'
            cases hk'
            exact h2
          · simp only [upd, hs', if_false] at hk'
            exact h.conn s' k' hk'
        · intro s' hk'
          by_cases hs' : s' = s
          · subst hs'
            simp [upd] at hk'
          · simp only [upd, hs', if_false] at hk'
            exact h.fresh s' hk'

/-! ### The event loop -/

theorem downOf_ans (s : S) (os : List (Out N T S)) : os.filterMap (downOf s) =
    (os.filterMap ansOf).filterMap (fun a => if a.1 = s then
      some (.arrives (match a.2 with | some n => .sendBlock n | none => .requestShutdown)) else none) := by
  rw [List.filterMap_filterMap]
  congr 1
  funext o
  cases o <;> simp [downOf, ansOf]

theorem deliver_nil {y : Sys N T K S} {conn : S → Option (Conn N T)} {os : List (Out N T S)} {s : S} {k k' : Conn N T}
    (hk : conn s = some k) (ho : os.filterMap (downOf s) = []) (h : Cluster.deliver y conn os s = some k') :
    k' = k := by
  unfold Cluster.deliver at h
  rw [hk, Option.map_some] at h
  injection h with h
  rw [← h, ho, List.append_nil]
  split <;> rfl

theorem recv_takes {p : T → List S} {o : Option (Msg N T × S)} {y : Sys N T K S} {cfg : SConf T}
    (h : Takes cfg y.srv y.recv.1 o p) : (∃ m s q, o = some (m, s) ∧ y.queue = (m, s) :: q ∧ y.recv.2.1 = q ∧
      p = y.srv.pending) ∨
    (o = none ∧ y.recv.2.1 = y.queue ∧ p = y.srv.pending) ∨
    ∃ t s rest, o = some (.acquire t, s) ∧ y.recv.2.1 = y.queue ∧ t ∈ cfg.served ∧ y.srv.pending t = s :: rest ∧
      p = upd y.srv.pending t rest := by
  unfold Sys.recv at h ⊢
  split at h
  · rename_i he
    rw [if_pos he]
    cases h
    exact Or.inr (Or.inl ⟨rfl, rfl, rfl⟩)
  · rename_i he
    rw [if_neg he]
    split at h
    · rename_i hq
      dsimp only at h
      cases h with
      | idle _ => exact Or.inr (Or.inl ⟨rfl, hq.symm, rfl⟩)
      | again t s rest h1 h2 => exact Or.inr (Or.inr ⟨t, s, rest, rfl, hq.symm, h1, h2, rfl⟩)
    · rename_i m s q hq
      dsimp only at h
      cases h
      exact Or.inl ⟨m, s, q, rfl, hq, rfl, rfl⟩

/-- The connection of a client that gets an answer to its request. -/
theorem acquire_ok {cfg : SConf T} {cl : S → Prop} {s : S} {k k' : Conn N T} {u : List (Msg N T)}
    {p p' : T → List S} {h h' : N → Option S} {os : List (Out N T S)} {conn : S → Option (Conn N T)} {z : Sys N T K S}
    (hcl : ∀ s, cl s ↔ s ∈ z.closed) (hconn : conn s = some k) (hk : Taken g cfg cl s k u p h)
    (he : AcquireEffect g k.task s p p' h h' os) (hd : Cluster.deliver z conn os s = some k') :
    underway k' = underway k ∧ ConnOK g cfg cl s k' u p' h' := by
  unfold Cluster.deliver at hd
  rw [hconn, Option.map_some] at hd
  injection hd with hd
  by_cases hc : s ∈ z.closed
  · rw [if_pos hc] at hd
    subst hd
    refine ⟨rfl, ?_⟩
    have hc' := (hcl s).2 hc
    rcases he with ⟨n, _, _, _, rfl, _, _⟩ | ⟨_, rfl, _⟩ | ⟨_, rfl, rfl⟩
    · exact hk.lost hc'
    · exact hk.lost hc'
    · exact hk.delay
  · rw [if_neg hc, downOf_ans] at hd
    subst hd
    refine ⟨rfl, ?_⟩
    rcases he with ⟨n, h1, h2, h3, rfl, h4, rfl⟩ | ⟨h3, rfl, rfl⟩ | ⟨h3, rfl, rfl⟩
    · rw [h3]
      simp only [List.filterMap_cons, List.filterMap_nil, if_true]
      refine hk.answer (by simp) ?_ ?_
      · rintro m ⟨⟩
        exact ⟨h1, h2, by simp⟩
      · intro m hm
        by_cases hmn : m = n
        · subst hmn; exact Or.inl rfl
        · rw [if_neg hmn] at hm; exact Or.inr hm
    · rw [h3]
      simp only [List.filterMap_cons, List.filterMap_nil, if_true]
      refine hk.answer (by simp) ?_ ?_
      · rintro m ⟨⟩
      · intro m hm
        exact Or.inr hm
    · rw [h3]
      simp only [List.filterMap_nil, List.append_nil]
      exact hk.delay

/-- What the server does with a message of another client. -/
theorem MsgEffect.others {m : Msg N T} {s s0 : S} {p p' : T → List S} {h h' : N → Option S}
    {os : List (Out N T S)} (he : MsgEffect g s0 p p' h h' os m) (hs : s ≠ s0) :
    os.filterMap (downOf s) = [] ∧ (∀ t, (p' t).count s = (p t).count s) ∧ ∀ n, h' n = some s ↔ h n = some s := by
  have hs' : ¬ s0 = s := fun e => hs e.symm
  rw [downOf_ans]
  have hret : ∀ n, ReturnEffect n s0 p p' h h' os → os.filterMap ansOf = [] ∧ (∀ t, (p' t).count s = (p t).count s) ∧
      ∀ n, h' n = some s ↔ h n = some s := by
    rintro n ⟨h1, rfl, rfl⟩
    refine ⟨h1, fun _ => rfl, ?_⟩
    intro x
    dsimp only
    split_ifs with hx
    · rw [hx.1, hx.2]
      constructor
      · intro e; cases e
      · intro e; injection e with e; exact absurd e hs'
    · rfl
  cases m with
  | acquire t =>
    rcases he with ⟨n, h1, h2, h3, rfl, h4, rfl⟩ | ⟨h3, rfl, rfl⟩ | ⟨h3, rfl, rfl⟩
    · refine ⟨by rw [h3]; simp [hs'], fun _ => rfl, ?_⟩
      intro x
      dsimp only
      split_ifs with hx
      · rw [hx, h4]
        constructor
        · intro e; injection e with e; exact absurd e hs'
        · intro e; cases e
      · rfl
    · exact ⟨by rw [h3]; simp [hs'], fun _ => rfl, fun _ => Iff.rfl⟩
    · refine ⟨by rw [h3]; rfl, ?_, fun _ => Iff.rfl⟩
      intro t'
      by_cases ht : t' = t
      · subst ht
        simp [upd, List.count_append, hs']
      · simp [upd, ht]
  | release n st => obtain ⟨a, b⟩ := hret n he; exact ⟨by rw [a]; rfl, b⟩
  | blockFailed n w => obtain ⟨a, b⟩ := hret n he; exact ⟨by rw [a]; rfl, b⟩
  | clientException => exact absurd he id
  | other => exact absurd he id

theorem queued_cons_self (m : Msg N T) (s : S) (q : List (Msg N T × S)) :
    queued s ((m, s) :: q) = m :: queued s q := by simp [queued]

theorem queued_cons_ne (m : Msg N T) {s s0 : S} (hs : s ≠ s0) (q : List (Msg N T × S)) :
    queued s ((m, s0) :: q) = queued s q := by
  have hs' : ¬ s0 = s := fun e => hs e.symm
  simp [queued, hs']

theorem count_rest {p : T → List S} {t : T} {s s0 : S} {rest : List S} (hp : p t = s0 :: rest) (hs : s ≠ s0)
    (t' : T) : ((upd p t rest) t').count s = (p t').count s := by
  have hs' : ¬ s0 = s := fun e => hs e.symm
  by_cases ht : t' = t
  · subst ht
    rw [hp]
    simp [upd, hs']
  · simp [upd, ht]

theorem ClInv.loop (hg : g.Loose) (h : ClInv g c x) {k : LoopEnv N T S} (hl : LegalCl c x (.sys (.loop k)))
    {z : Sys N T K S} (hz : x.sys.loop g c k = .ok z) :
    ClInv g c ⟨z, Cluster.deliver x.sys x.conn (z.srv.out.drop x.sys.srv.out.length)⟩ := by
  obtain ⟨es, hrun⟩ := h.run
  have hl' : LegalEv g c x.sys (.loop k) := ⟨hl.1, hl.2.1⟩
  obtain ⟨ks, hsrun⟩ := hrun.srun
  obtain ⟨o, p, os, h1, tk, ho, ef, hh⟩ := iteration_effect hg (hsrun.inv hg) (goodTick_of hrun hl') (loop_iteration hz)
  obtain ⟨_, _, _, hcl, hq, _⟩ := loop_parts hz
  have hdrop : z.srv.out.drop x.sys.srv.out.length = os := by rw [ho, List.drop_left]
  rw [hdrop]
  have hclosed : ∀ s, s ∈ x.sys.closed → s ∈ z.closed := by
    intro s hs
    rw [hcl]
    exact List.mem_append_left _ hs
  have hfin : ∀ s k' u, ConnOK g c.cfg (· ∈ x.sys.closed) s k' u z.srv.pending h1 →
      ConnOK g c.cfg (· ∈ z.closed) s k' u z.srv.pending (holder z.srv.out) := by
    intro s k' u hk
    refine (hk.mono (cl' := (· ∈ z.closed)) (hclosed s)).lose ?_ ?_
    · intro n hn
      rw [hh] at hn
      split_ifs at hn
      exact hn
    · intro hs n hn
      rw [hh, if_neg, hn]
      rintro ⟨s', e1, e2⟩
      rw [hn] at e1
      cases e1
      simp only [Sys.tickOf, decide_eq_true_eq] at e2
      exact hs (hcl ▸ e2)
  refine ⟨⟨_, SysRun.step (.loop k) hrun hl' trivial hz⟩, ?_, ?_⟩
  · intro s k' hk'
    dsimp only at hk' ⊢
    obtain ⟨k0, hk0, _⟩ := Option.map_eq_some_iff.1 hk'
    have hok := h.conn s k0 hk0
    apply hfin
    rw [hq]
    have tk' : Takes c.cfg x.sys.srv x.sys.recv.1 o p := tk
    rcases recv_takes tk' with ⟨m, s0, q, rfl, eq, er, rfl⟩ | ⟨rfl, er, rfl⟩ | ⟨t, s0, rest, rfl, er, ht, hp, rfl⟩
    · rw [er]
      by_cases hs : s = s0
      · subst hs
        rw [eq, queued_cons_self, List.cons_append] at hok
        cases m with
        | acquire t =>
          obtain ⟨rfl, htk⟩ := hok.takeMsg
          obtain ⟨e1, e2⟩ := acquire_ok (fun _ => Iff.rfl) hk0 htk ef hk'
          rw [e1]; exact e2
        | release n st =>
          obtain ⟨a1, a2, a3⟩ := ef
          have := deliver_nil hk0 (by rw [downOf_ans, a1]; rfl) hk'
          subst this
          rw [a2, a3]
          exact hok.returned rfl
        | blockFailed n w =>
          obtain ⟨a1, a2, a3⟩ := ef
          have := deliver_nil hk0 (by rw [downOf_ans, a1]; rfl) hk'
          subst this
          rw [a2, a3]
          exact hok.returned rfl
        | clientException => exact absurd ef id
        | other => exact absurd ef id
      · rw [eq, queued_cons_ne m hs] at hok
        obtain ⟨a1, a2, a3⟩ := MsgEffect.others ef hs
        have := deliver_nil hk0 a1 hk'
        subst this
        exact hok.congr a2 a3
    · rw [er]
      obtain ⟨a1, a2, a3⟩ := ef
      have := deliver_nil hk0 (by rw [downOf_ans, a1]; rfl) hk'
      subst this
      rw [a2, a3]
      exact hok
    · rw [er]
      by_cases hs : s = s0
      · subst hs
        obtain ⟨rfl, htk⟩ := hok.takePending hp
        obtain ⟨e1, e2⟩ := acquire_ok (fun _ => Iff.rfl) hk0 htk ef hk'
        rw [e1]; exact e2
      · obtain ⟨a1, a2, a3⟩ := MsgEffect.others (m := .acquire t) ef hs
        have := deliver_nil hk0 a1 hk'
        subst this
        exact hok.congr (fun t' => (a2 t').trans (count_rest hp hs t')) a3
  · intro s hk'
    dsimp only at hk' ⊢
    obtain ⟨n1, n2, n3⟩ := h.fresh s (Option.map_eq_none_iff.1 hk')
    have key : queued s z.queue = [] ∧ (∀ t, (z.srv.pending t).count s = 0) ∧ ∀ n, h1 n ≠ some s := by
      rw [hq]
      have tk' : Takes c.cfg x.sys.srv x.sys.recv.1 o p := tk
      have hz : ∀ t, (x.sys.srv.pending t).count s = 0 := fun t => List.count_eq_zero.2 (n2 t)
      rcases recv_takes tk' with ⟨m, s0, q, rfl, eq, er, rfl⟩ | ⟨rfl, er, rfl⟩ | ⟨t, s0, rest, rfl, er, ht, hp, rfl⟩
      · rw [er]
        have hs : s ≠ s0 := by
          rintro rfl
          rw [eq, queued_cons_self] at n1
          cases n1
        rw [eq, queued_cons_ne m hs] at n1
        obtain ⟨a1, a2, a3⟩ := MsgEffect.others ef hs
        exact ⟨n1, fun t => (a2 t).trans (hz t), fun n hn => n3 n ((a3 n).1 hn)⟩
      · rw [er]
        obtain ⟨a1, a2, a3⟩ := ef
        rw [a2, a3]
        exact ⟨n1, hz, n3⟩
      · rw [er]
        have hs : s ≠ s0 := by
          rintro rfl
          exact n2 t (by rw [hp]; exact List.mem_cons_self)
        obtain ⟨a1, a2, a3⟩ := MsgEffect.others (m := .acquire t) ef hs
        exact ⟨n1, fun t' => ((a2 t').trans (count_rest hp hs t')).trans (hz t'), fun n hn => n3 n ((a3 n).1 hn)⟩
    refine ⟨key.1, fun t => List.count_eq_zero.1 (key.2.1 t), ?_⟩
    intro n hn
    rw [hh] at hn
    split_ifs at hn
    exact key.2.2 n hn

theorem ClRun.inv (hg : g.Loose) (h : ClRun g c es x) : ClInv g c x := by
  induction h with
  | init h => exact ClInv.init h
  | step e _ hl hs ih =>
    cases e with
    | connect s t w => cases hs; exact ih.connect hl.1 hl.2.2
    | client s body => cases hs; exact ih.modify s _ (fun k hk => (ih.conn s k hk).step body)
    | kill s => cases hs; exact ih.modify s _ (fun k hk => (ih.conn s k hk).kill)
    | up s => cases hs; exact ih.up hl.1
    | down s => cases hs; exact ih.modify s _ (fun k hk => (ih.conn s k hk).down)
    | breaks s e => cases hs; exact ih.modify s _ (fun k hk => (ih.conn s k hk).breaks hl.2)
    | sys e =>
      have hnil : ∀ (x' : Sys N T K S) (conn : S → Option (Conn N T)) (l : List (Out N T S)),
          Cluster.deliver x' conn (l.drop l.length) = conn := by
        intro x' conn l
        funext s
        unfold Cluster.deliver
        rw [List.drop_length]
        rcases conn s with _ | k
        · rfl
        · simp
      cases e with
      | arrive m s => exact absurd hl id
      | close s =>
        simp only [Cluster.step, Sys.step] at hs
        cases hs
        rw [hnil]
        obtain ⟨es, hrun⟩ := ih.run
        refine ⟨⟨_, SysRun.step (.close s) hrun hl.1 trivial rfl⟩, ?_, ih.fresh⟩
        intro s' k hk
        exact (ih.conn s' k hk).mono (fun h => List.mem_append_left _ h)
      | proc p =>
        simp only [Cluster.step, Sys.step] at hs
        cases hs
        rw [hnil]
        obtain ⟨es, hrun⟩ := ih.run
        exact ⟨⟨_, SysRun.step (.proc p) hrun trivial trivial rfl⟩, ih.conn, ih.fresh⟩
      | loop k =>
        simp only [Cluster.step] at hs
        split at hs
        · cases hs
        · next z hz => cases hs; exact ih.loop hg hl hz

end Verif
