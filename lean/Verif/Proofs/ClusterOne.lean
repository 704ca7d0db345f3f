import Verif.Proofs.ClusterAsk

/-! # A client has one block at a time -/

set_option linter.unusedSectionVars false

namespace Verif

open Spec

variable {N T K S : Type} [DecidableEq N] [DecidableEq T] [DecidableEq K] [DecidableEq S]
  {g : DGraph N T K} {c : SysConf T} {es : List (ClEv N T S)} {x y : Cluster N T K S}

/-- A request. -/
def isAcq : Msg N T → Bool
  | .acquire _ => true
  | _ => false

/-- The messages of client `s` that can still reach the event loop. -/
def coming (x : Cluster N T K S) (s : S) (k : Conn N T) : List (Msg N T) :=
  queued s x.sys.queue ++ if s ∈ x.sys.closed then [] else underway k

/-- A client has at most one block, at most one request, and before its next request arrives, its block is returned. -/
structure OneOK (s : S) (t : T) (w : List (Msg N T)) (p : T → List S) (h : N → Option S) : Prop where
  one : ∀ n m, h n = some s → h m = some s → n = m
  acqs : w.countP isAcq + (p t).count s ≤ 1
  held : ∀ n, h n = some s → (p t).count s = 0 ∧ ∀ a t' b, w = a ++ .acquire t' :: b → ∃ m ∈ a, IsReturn n m

section
variable {s : S} {t : T} {w r : List (Msg N T)} {p p' : T → List S} {h h' : N → Option S}

theorem OneOK.shorter (hk : OneOK s t (w ++ r) p h) (hh : ∀ n, h' n = some s → h n = some s)
    (hp : (p' t).count s = (p t).count s) : OneOK s t w p' h' where
  one n m h1 h2 := hk.one n m (hh n h1) (hh m h2)
  acqs := by
    have := hk.acqs
    rw [List.countP_append] at this
    omega
  held n hn := by
    obtain ⟨h1, h2⟩ := hk.held n (hh n hn)
    refine ⟨by omega, ?_⟩
    intro a t' b e
    exact h2 a t' (b ++ r) (by rw [e]; simp)

theorem OneOK.less (hk : OneOK s t w p h) (hh : ∀ n, h' n = some s → h n = some s)
    (hp : (p' t).count s = (p t).count s) : OneOK s t w p' h' :=
  OneOK.shorter (r := []) (by rw [List.append_nil]; exact hk) hh hp

theorem countP_noAcq (hr : NoAcq r) : r.countP isAcq = 0 := by
  rw [List.countP_eq_zero]
  intro m hm
  cases m with
  | acquire t => exact absurd hm (hr t)
  | _ => simp [isAcq]

theorem noAcq_countP (hr : r.countP isAcq = 0) : NoAcq r := by
  intro t ht
  have := List.countP_eq_zero.1 hr _ ht
  simp [isAcq] at this

theorem OneOK.add (hk : OneOK s t w p h) (hr : NoAcq r) : OneOK s t (w ++ r) p h where
  one := hk.one
  acqs := by rw [List.countP_append, countP_noAcq hr]; exact hk.acqs
  held n hn := by
    obtain ⟨h1, h2⟩ := hk.held n hn
    refine ⟨h1, ?_⟩
    intro a t' b e
    rcases List.append_eq_append_iff.1 e with ⟨d, e1, e2⟩ | ⟨d, e1, e2⟩
    · exact absurd (by rw [e2]; simp : Msg.acquire t' ∈ r) (hr t')
    · cases d with
      | nil =>
        rw [List.nil_append] at e2
        exact absurd (by rw [← e2]; simp : Msg.acquire t' ∈ r) (hr t')
      | cons m d =>
        injection e2 with e2 e3
        subst e2
        exact h2 a t' d e1

theorem OneOK.request (hk : OneOK s t w p h) (hw : NoAcq w) (hp : s ∉ p t)
    (hb : ∀ n, h n = some s → ∃ m ∈ w, IsReturn n m) (t' : T) : OneOK s t (w ++ [.acquire t']) p h where
  one := hk.one
  acqs := by rw [List.countP_append, countP_noAcq hw, List.count_eq_zero.2 hp]; simp [isAcq]
  held n hn := by
    refine ⟨List.count_eq_zero.2 hp, ?_⟩
    intro a t'' b e
    rcases List.append_eq_append_iff.1 e with ⟨d, e1, e2⟩ | ⟨d, e1, e2⟩
    · obtain ⟨m, hm, hr⟩ := hb n hn
      exact ⟨m, by rw [e1]; exact List.mem_append_left _ hm, hr⟩
    · cases d with
      | nil =>
        rw [List.append_nil] at e1
        rw [← e1]
        exact hb n hn
      | cons m d =>
        injection e2 with e2 e3
        subst e2
        exact absurd (by rw [e1]; simp) (hw t'')

theorem OneOK.back {m : Msg N T} {n : N} (hk : OneOK s t (m :: w) p h) (hm : IsReturn n m) :
    OneOK s t w p (fun x => if x = n ∧ h n = some s then none else h x) := by
  have hle : ∀ x, (if x = n ∧ h n = some s then none else h x) = some s → h x = some s ∧ x ≠ n := by
    intro x hx
    split_ifs at hx with hc
    refine ⟨hx, ?_⟩
    rintro rfl
    exact hc ⟨rfl, hx⟩
  refine ⟨fun a b h1 h2 => hk.one a b (hle a h1).1 (hle b h2).1, ?_, ?_⟩
  · have := hk.acqs
    rw [List.countP_cons] at this
    omega
  · intro x hx
    obtain ⟨h1, h2⟩ := hle x hx
    obtain ⟨h3, h4⟩ := hk.held x h1
    refine ⟨h3, ?_⟩
    intro a t' b e
    obtain ⟨m', hm', hr⟩ := h4 (m :: a) t' b (by rw [e]; rfl)
    rcases List.mem_cons.1 hm' with rfl | hm'
    · exfalso
      cases m' with
      | release a b => exact h2 (hr.symm.trans hm)
      | blockFailed a b => exact h2 (hr.symm.trans hm)
      | _ => exact absurd hm id
    · exact ⟨m', hm', hr⟩

/-- The request of a client is handled. -/
theorem OneOK.asked {t' : T} {os : List (Out N T S)} (h1 : ∀ n, h n ≠ some s) (h2 : NoAcq w) (h3 : s ∉ p t)
    (he : AcquireEffect g t' s p p' h h' os) : OneOK s t w p' h' := by
  rcases he with ⟨n, _, _, _, rfl, _, rfl⟩ | ⟨_, rfl, rfl⟩ | ⟨_, rfl, rfl⟩
  · have hle : ∀ x, (if x = n then some s else h x) = some s → x = n := by
      intro x hx
      split_ifs at hx with hc
      · exact hc
      · exact absurd hx (h1 x)
    refine ⟨fun a b ha hb => (hle a ha).trans (hle b hb).symm, ?_, ?_⟩
    · rw [countP_noAcq h2, List.count_eq_zero.2 h3]; omega
    · intro x _
      exact ⟨List.count_eq_zero.2 h3, fun a t' b e => absurd (by rw [e]; simp) (h2 t')⟩
  · refine ⟨fun a b ha hb => absurd ha (h1 a), ?_, fun n hn => absurd hn (h1 n)⟩
    rw [countP_noAcq h2, List.count_eq_zero.2 h3]; omega
  · refine ⟨fun a b ha hb => absurd ha (h1 a), ?_, fun n hn => absurd hn (h1 n)⟩
    rw [countP_noAcq h2]
    by_cases e : t = t'
    · subst e
      rw [show upd p t (p t ++ [s]) t = p t ++ [s] by simp [upd], List.count_append, List.count_eq_zero.2 h3]
      simp
    · rw [show upd p t' (p t' ++ [s]) t = p t by simp [upd, e], List.count_eq_zero.2 h3]
      omega

end

/-- What a client sends in one step. -/
theorem client_sends (k : Conn N T) (body : BodyEnd) : ∃ r, underway (k.step body) = underway k ++ r ∧
    (NoAcq r ∨ k.phase = .idle ∧ k.tcp.connected = true ∧ r = [.acquire k.task]) := by
  have hw := (client_frame k body).1
  suffices h : ∃ r, (k.step body).tcp.outbox = k.tcp.outbox ++ r ∧
      ((∀ t, .acquire t ∉ r) ∨ k.phase = .idle ∧ k.tcp.connected = true ∧ r = [.acquire k.task]) by
    obtain ⟨r, h1, h2⟩ := h
    refine ⟨r.filterMap (Conn.toMsg k.worker), ?_, ?_⟩
    · unfold underway
      rw [hw, h1, List.filterMap_append]
    · rcases h2 with h2 | ⟨h2, h3, rfl⟩
      · left
        intro t ht
        obtain ⟨m, hm, e⟩ := List.mem_filterMap.1 ht
        cases m with
        | acquire t' => exact h2 t' hm
        | release b st => cases st <;> cases e
        | blockFailed b er => cases e
        | disconnect => cases e
      · exact Or.inr ⟨h2, h3, rfl⟩
  have hnil : ∀ t, (.acquire t : ClientMsg N T) ∉ ([] : List (ClientMsg N T)) := fun t h => by cases h
  have hex : ∀ n st e, ∃ r, (k.exits (Client.finish k.tcp n st e)).tcp.outbox = k.tcp.outbox ++ r ∧
      ((∀ t, .acquire t ∉ r) ∨ k.phase = .idle ∧ k.tcp.connected = true ∧ r = [.acquire k.task]) := by
    intro n st e
    unfold Client.finish
    dsimp only
    rcases send_cases k.tcp (.release n (if st ≠ .enum .success then .enum .failed else st)) with
      ⟨e', c', h1, h2, h3, h4, h5, h6⟩ | ⟨h1, h2⟩
    · rw [h1]
      exact ⟨[], by simp only [Conn.exits, h3, List.append_nil], Or.inl hnil⟩
    · rw [h1]
      cases e <;> exact ⟨[_], rfl, Or.inl (by simp)⟩
  cases hph : k.phase with
  | idle =>
    simp only [Conn.step, hph]
    rcases send_cases k.tcp (.acquire k.task) with ⟨e', c', h1, h2, h3, h4, h5, h6⟩ | ⟨h1, h2⟩
    · rw [h1]; exact ⟨[], by simp only [h3, List.append_nil], Or.inl hnil⟩
    · rw [h1]; exact ⟨_, rfl, Or.inr ⟨trivial, h2, rfl⟩⟩
  | waiting =>
    simp only [Conn.step, hph]
    rcases get_cases k.tcp with ⟨e', c', h1, h2, h3, h4, h5, h6⟩ | ⟨hc, ⟨hi, h1⟩ | ⟨m, r, hi, h1⟩⟩
    · rw [h1]
      cases e' <;> exact ⟨[], by simp only [h3, List.append_nil], Or.inl hnil⟩
    · rw [h1]; exact ⟨[], by simp, Or.inl hnil⟩
    · rw [h1]
      cases m with
      | other => exact ⟨[], by simp, Or.inl hnil⟩
      | sendBlock b => exact ⟨[], by simp, Or.inl hnil⟩
      | requestShutdown =>
        dsimp only
        split
        · exact ⟨[], by simp, Or.inl hnil⟩
        · split
          · exact ⟨[], by simp, Or.inl hnil⟩
          · exact ⟨[.disconnect], rfl, Or.inl (by simp)⟩
  | leaving =>
    simp only [Conn.step, hph]
    split
    · exact ⟨[], by simp, Or.inl hnil⟩
    · exact ⟨[], by simp, Or.inl hnil⟩
  | working n =>
    simp only [Conn.step, hph]
    rw [hph] at hex
    cases hb : body.raised with
    | none => exact hex _ _ _
    | some e =>
      dsimp only
      split
      · rcases send_cases k.tcp (.blockFailed n e) with ⟨e', c', h1, h2, h3, h4, h5, h6⟩ | ⟨h1, h2⟩
        · rw [h1]; exact ⟨[], by simp only [h3, List.append_nil], Or.inl hnil⟩
        · rw [h1]; exact ⟨[_], rfl, Or.inl (by simp)⟩
      · exact hex _ _ _
  | failing n e => rw [hph] at hex; simp only [Conn.step, hph]; exact hex _ _ _
  | ended e => simp only [Conn.step, hph]; exact ⟨[], by simp, Or.inl hnil⟩
  | killed => simp only [Conn.step, hph]; exact ⟨[], by simp, Or.inl hnil⟩

theorem outbox_net (t : TcpClient N T) (v : NetEv N) : (t.net v).outbox = t.outbox := by
  cases v <;> simp only [TcpClient.net] <;> split <;> rfl

/-- All clients. -/
def OneInv (x : Cluster N T K S) : Prop :=
  ∀ s k, x.conn s = some k → OneOK s k.task (coming x s k) x.sys.srv.pending (holder x.sys.srv.out)

theorem OneInv.step (hg : g.Loose) (hi : ClInv g c x) (h : OneInv x) {e : ClEv N T S} (hl : LegalCl c x e)
    (hs : x.step g c e = .ok y) : OneInv y := by
  intro s k hk
  rcases hx : x.conn s with _ | k0
  · obtain ⟨t, w, rfl⟩ := connect_of_none hs hx hk
    obtain ⟨n1, n2, n3⟩ := hi.fresh s hx
    cases hs
    simp only [upd, if_true] at hk
    cases hk
    refine ⟨fun n m h1 => absurd h1 (n3 n), ?_, fun n hn => absurd hn (n3 n)⟩
    have : coming { x with conn := upd x.conn s (some (Conn.new t w)) } s (Conn.new t w) = ([] : List (Msg N T)) := by
      unfold coming
      dsimp only
      rw [n1]
      split <;> rfl
    rw [this, List.count_eq_zero.2 (n2 _)]
    exact Nat.zero_le _
  · obtain ⟨k1, e1, e2⟩ := eff_of_step hg hi hl hs hx
    rw [hk] at e1
    cases e1
    have h0 := h s k0 hx
    have hok := hi.conn s k0 hx
    rw [e2.names.2]
    have same : y.sys = x.sys → underway k = underway k0 →
        OneOK s k0.task (coming y s k) y.sys.srv.pending (holder y.sys.srv.out) := by
      intro a1 a2
      unfold coming at h0 ⊢
      rw [a1, a2]
      exact h0
    cases e2 with
    | client body a1 a2 =>
      unfold coming at h0 ⊢
      rw [a1]
      by_cases hc : s ∈ x.sys.closed
      · rw [if_pos hc] at h0 ⊢
        exact h0
      · rw [if_neg hc] at h0 ⊢
        obtain ⟨r, b1, b2⟩ := client_sends k0 body
        rw [b1, ← List.append_assoc]
        rcases b2 with b2 | ⟨b2, b3, rfl⟩
        · exact h0.add b2
        · have ht := hok.talk hc
          unfold Talk at ht
          rw [b2] at ht
          obtain ⟨t1, t2, t3⟩ := ht
          refine h0.request t1 t2 ?_ _
          intro n hn
          rcases hok.held n hn with q | q | q | q | ⟨_, q⟩ | q | q
          · exact absurd q hc
          · rw [b2] at q; exact absurd q id
          · rw [b3] at q; cases q
          · rw [b2] at q; cases q
          · rw [b2] at q; cases q
          · rw [t3] at q; cases q
          · exact q
    | kill a1 => exact same a1 rfl
    | breaks v a1 =>
      refine same a1 ?_
      unfold underway
      rw [show (k0.tcp.net v).outbox = k0.tcp.outbox from outbox_net _ _]
    | down v r a0 a1 =>
      refine same a1 ?_
      unfold underway
      rw [show (k0.tcp.net v).outbox = k0.tcp.outbox from outbox_net _ _]
    | up m m' r a0 a1 a2 =>
      have hc : s ∉ x.sys.closed := hl.1
      unfold coming at h0 ⊢
      rw [a2]
      rw [if_neg hc] at h0 ⊢
      have hq : queued s (x.sys.queue ++ [(m', s)]) = queued s x.sys.queue ++ [m'] := by
        rw [queued_append]; simp [queued]
      have hu : underway k0 = m' :: underway { k0 with tcp := { k0.tcp with outbox := r } } := by
        unfold underway
        rw [a0, List.filterMap_cons, a1]
      dsimp only
      rw [hq, List.append_assoc]
      rw [hu] at h0
      exact h0
    | bye r a0 a1 =>
      refine same a1 ?_
      unfold underway
      rw [a0, List.filterMap_cons]
      rfl
    | other e q a1 a2 a3 a4 =>
      unfold coming at h0 ⊢
      rw [a1, a2, queued_append, a3, List.append_nil]
      by_cases hc : s ∈ x.sys.closed
      · rw [if_pos hc] at h0
        rw [if_pos (a4 s hc)]
        exact h0
      · rw [if_neg hc] at h0
        split
        · rw [List.append_nil]
          exact h0.shorter (fun _ h => h) rfl
        · exact h0
    | loop l os a1 a2 a3 =>
      obtain ⟨es, hrun⟩ := hi.run
      have hl' : LegalEv g c x.sys (.loop l) := ⟨hl.1, hl.2.1⟩
      obtain ⟨ks, hsrun⟩ := hrun.srun
      obtain ⟨o, p, os', h1, tk, ho, ef, hh⟩ :=
        iteration_effect hg (hsrun.inv hg) (goodTick_of hrun hl') (loop_iteration a2)
      obtain ⟨_, _, _, hcl, hq, _⟩ := loop_parts a2
      have hle : ∀ n, holder y.sys.srv.out n = some s → h1 n = some s := by
        intro n hn
        rw [hh] at hn
        split_ifs at hn
        exact hn
      have hund : underway (if s ∈ x.sys.closed then k0 else { k0 with down := k0.down ++ os.filterMap (downOf s) }) =
          underway k0 := by split <;> rfl
      have hfin : ∀ w, OneOK s k0.task (w ++ if s ∈ x.sys.closed then [] else underway k0) y.sys.srv.pending h1 →
          w = queued s y.sys.queue → OneOK s k0.task
            (coming y s (if s ∈ x.sys.closed then k0 else { k0 with down := k0.down ++ os.filterMap (downOf s) }))
            y.sys.srv.pending (holder y.sys.srv.out) := by
        intro w hw e
        unfold coming
        rw [← e, hund]
        by_cases hc : s ∈ x.sys.closed
        · have hc' : s ∈ y.sys.closed := by rw [hcl]; exact List.mem_append_left _ hc
          rw [if_pos hc] at hw
          rw [if_pos hc']
          exact hw.less hle rfl
        · rw [if_neg hc] at hw
          split
          · rw [List.append_nil]; exact hw.shorter hle rfl
          · exact hw.less hle rfl
      have tk' : Takes c.cfg x.sys.srv x.sys.recv.1 o p := tk
      unfold coming at h0
      rcases recv_takes tk' with ⟨m, s0, q, rfl, eq, er, rfl⟩ | ⟨rfl, er, rfl⟩ | ⟨t, s0, rest, rfl, er, ht, hp, rfl⟩
      · refine hfin (queued s q) ?_ (by rw [hq, er])
        by_cases hs0 : s = s0
        · subst hs0
          rw [eq, queued_cons_self, List.cons_append] at h0
          cases m with
          | acquire t =>
            have hcnt := h0.acqs
            rw [List.countP_cons] at hcnt
            simp only [isAcq, if_true] at hcnt
            refine OneOK.asked ?_ (noAcq_countP (by omega)) (List.count_eq_zero.1 (by omega)) ef
            intro n hn
            obtain ⟨m, hm, _⟩ := (h0.held n hn).2 [] t _ rfl
            cases hm
          | release n st =>
            obtain ⟨_, b2, b3⟩ := ef
            rw [b2, b3]
            exact h0.back rfl
          | blockFailed n w =>
            obtain ⟨_, b2, b3⟩ := ef
            rw [b2, b3]
            exact h0.back rfl
          | clientException => exact absurd ef id
          | other => exact absurd ef id
        · rw [eq, queued_cons_ne m hs0] at h0
          obtain ⟨_, b2, b3⟩ := MsgEffect.others ef hs0
          exact h0.less (fun n hn => (b3 n).1 hn) (b2 _)
      · refine hfin (queued s x.sys.queue) ?_ (by rw [hq, er])
        obtain ⟨_, b2, b3⟩ := ef
        rw [b2, b3]
        exact h0
      · refine hfin (queued s x.sys.queue) ?_ (by rw [hq, er])
        by_cases hs0 : s = s0
        · subst hs0
          have htk : t = k0.task := by
            by_contra hne
            exact hok.other t hne (by rw [hp]; exact List.mem_cons_self)
          subst htk
          have hcnt := h0.acqs
          rw [hp, List.count_cons_self] at hcnt
          refine OneOK.asked ?_ (noAcq_countP (by omega)) ?_ ef
          · intro n hn
            have := (h0.held n hn).1
            rw [hp, List.count_cons_self] at this
            omega
          · rw [show upd x.sys.srv.pending k0.task rest k0.task = rest by simp [upd]]
            exact List.count_eq_zero.1 (by omega)
        · obtain ⟨_, b2, b3⟩ := MsgEffect.others (m := .acquire t) ef hs0
          exact h0.less (fun n hn => (b3 n).1 hn) ((b2 _).trans (count_rest hp hs0 _))

theorem ClRun.oneInv (hg : g.Loose) (h : ClRun g c es x) : OneInv x := by
  induction h with
  | init h =>
    intro s k hk
    unfold Cluster.init at h
    split at h
    · cases h
    · cases h; cases hk
  | step e hr hl hs ih => exact ih.step hg (ClRun.inv hg hr) hl hs

/-- A client has connected. -/
theorem ClRun.connected (h : ClRun g c es x) {s : S} {k : Conn N T} (hk : x.conn s = some k) :
    ∃ t w, .connect s t w ∈ es := by
  induction h generalizing k with
  | init h =>
    unfold Cluster.init at h
    split at h
    · cases h
    · cases h; cases hk
  | @step es x x' e hr hl hs ih =>
    rcases hx : x.conn s with _ | k0
    · obtain ⟨t, w, rfl⟩ := connect_of_none hs hx hk
      exact ⟨t, w, List.mem_append_right _ List.mem_cons_self⟩
    · obtain ⟨t, w, hm⟩ := ih hx
      exact ⟨t, w, List.mem_append_left _ hm⟩

end Verif
