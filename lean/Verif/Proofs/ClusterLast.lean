import Verif.Proofs.ClusterOne

/-! # A request is the last message of a client until it is answered -/

set_option linter.unusedSectionVars false

namespace Verif

open Spec

variable {N T K S : Type} [DecidableEq N] [DecidableEq T] [DecidableEq K] [DecidableEq S]
  {g : DGraph N T K} {c : SysConf T} {es : List (ClEv N T S)} {x y : Cluster N T K S}

/-- Nothing comes after a request, and nothing comes while a request is delayed. -/
structure LastOK (s : S) (w : List (Msg N T)) (p : T → List S) : Prop where
  last : ∀ a t b, w = a ++ .acquire t :: b → b = []
  wait : ∀ t, s ∈ p t → w = []

section
variable {s : S} {w r : List (Msg N T)} {p p' : T → List S}

theorem LastOK.shorter (h : LastOK s (w ++ r) p) (hp : ∀ t, s ∈ p' t → s ∈ p t) : LastOK s w p' where
  last a t b e := (List.append_eq_nil_iff.1 (h.last a t (b ++ r) (by rw [e]; simp))).1
  wait t ht := (List.append_eq_nil_iff.1 (h.wait t (hp t ht))).1

theorem LastOK.less (h : LastOK s w p) (hp : ∀ t, s ∈ p' t → s ∈ p t) : LastOK s w p' :=
  LastOK.shorter (r := []) (by rw [List.append_nil]; exact h) hp

theorem LastOK.nil : LastOK s ([] : List (Msg N T)) p where
  last a t b e := by simp at e
  wait _ _ := rfl

theorem LastOK.add (hw : NoAcq w) (hr : NoAcq r ∨ ∃ t, r = [.acquire t]) (hp : ∀ t, s ∉ p t) : LastOK s (w ++ r) p where
  last a t b e := by
    rcases List.append_eq_append_iff.1 e with ⟨d, e1, e2⟩ | ⟨d, e1, e2⟩
    · rcases hr with hr | ⟨t', rfl⟩
      · exact absurd (by rw [e2]; simp : Msg.acquire t ∈ r) (hr t)
      · cases d with
        | nil => injection e2 with _ e2; exact e2.symm
        | cons m d => injection e2 with _ e2; simp at e2
    · cases d with
      | nil =>
        rw [List.nil_append] at e2
        rcases hr with hr | ⟨t', rfl⟩
        · exact absurd (by rw [← e2]; simp : Msg.acquire t ∈ r) (hr t)
        · injection e2 with _ e2
      | cons m d =>
        injection e2 with e2 e3
        subst e2
        exact absurd (by rw [e1]; simp) (hw t)
  wait t ht := absurd ht (hp t)

end

/-- A client that waits for an answer sends nothing. -/
theorem waiting_silent (k : Conn N T) (body : BodyEnd) (h : k.phase = .waiting ∨ k.phase = .leaving) :
    underway (k.step body) = underway k := by
  have hw := (client_frame k body).1
  suffices h : (k.step body).tcp.outbox.filterMap (Conn.toMsg k.worker) = k.tcp.outbox.filterMap (Conn.toMsg k.worker) by
    unfold underway
    rw [hw]
    exact h
  rcases h with hph | hph
  · simp only [Conn.step, hph]
    rcases get_cases k.tcp with ⟨e', c', h1, h2, h3, h4, h5, h6⟩ | ⟨hc, ⟨hi, h1⟩ | ⟨m, r, hi, h1⟩⟩
    · rw [h1]
      cases e' <;> simp only [h3]
    · rw [h1]
    · rw [h1]
      cases m with
      | other => rfl
      | sendBlock b => rfl
      | requestShutdown =>
        dsimp only
        split
        · rfl
        · split
          · rfl
          · dsimp only
            rw [List.filterMap_append]
            simp [Conn.toMsg]
  · simp only [Conn.step, hph]
    split <;> rfl

/-- All clients. -/
def LastInv (x : Cluster N T K S) : Prop :=
  ∀ s k, x.conn s = some k → LastOK s (coming x s k) x.sys.srv.pending

theorem mem_of_count {p p' : T → List S} {s : S} (h : ∀ t, (p' t).count s = (p t).count s) (t : T) (ht : s ∈ p' t) :
    s ∈ p t := by
  have := List.count_pos_iff.2 ht
  rw [h] at this
  exact List.count_pos_iff.1 this

theorem LastInv.step (hg : g.Loose) (hi : ClInv g c x) (h : LastInv x) {e : ClEv N T S} (hl : LegalCl c x e)
    (hs : x.step g c e = .ok y) : LastInv y := by
  intro s k hk
  rcases hx : x.conn s with _ | k0
  · obtain ⟨t, w, rfl⟩ := connect_of_none hs hx hk
    obtain ⟨n1, n2, n3⟩ := hi.fresh s hx
    cases hs
    simp only [upd, if_true] at hk
    cases hk
    have : coming { x with conn := upd x.conn s (some (Conn.new t w)) } s (Conn.new t w) = ([] : List (Msg N T)) := by
      unfold coming
      dsimp only
      rw [n1]
      split <;> rfl
    rw [this]
    exact LastOK.nil
  · obtain ⟨k1, e1, e2⟩ := eff_of_step hg hi hl hs hx
    rw [hk] at e1
    cases e1
    have h0 := h s k0 hx
    have hok := hi.conn s k0 hx
    have same : y.sys = x.sys → underway k = underway k0 → LastOK s (coming y s k) y.sys.srv.pending := by
      intro a1 a2
      unfold coming at h0 ⊢
      rw [a1, a2]
      exact h0
    cases e2 with
    | client body a1 a2 =>
      by_cases hwt : k0.phase = .waiting ∨ k0.phase = .leaving
      · exact same a1 (waiting_silent k0 body hwt)
      unfold coming at h0 ⊢
      rw [a1]
      by_cases hc : s ∈ x.sys.closed
      · rw [if_pos hc] at h0 ⊢
        exact h0
      · rw [if_neg hc] at h0 ⊢
        obtain ⟨r, b1, b2⟩ := client_sends k0 body
        rw [b1, ← List.append_assoc]
        have ht := hok.talk hc
        have hq : NoAcq (queued s x.sys.queue ++ underway k0) ∧ s ∉ x.sys.srv.pending k0.task := by
          unfold Talk at ht
          cases hph : k0.phase with
          | idle => rw [hph] at ht; exact ⟨ht.1, ht.2.1⟩
          | failing b e => rw [hph] at ht; exact ⟨ht.1, ht.2.1⟩
          | working n => rw [hph] at ht; exact ⟨(by rw [ht.1]; intro t h; cases h), ht.2.1⟩
          | waiting => exact absurd (Or.inl hph) hwt
          | leaving => exact absurd (Or.inr hph) hwt
          | ended e => exact absurd (by rw [hph]; trivial) a2
          | killed => exact absurd (by rw [hph]; trivial) a2
        refine LastOK.add hq.1 (b2.imp id (fun b => ⟨_, b.2.2⟩)) (fun t ht => ?_)
        by_cases e : t = k0.task
        · exact hq.2 (e ▸ ht)
        · exact hok.other t e ht
    | kill a1 => exact same a1 rfl
    | breaks v a1 =>
      refine same a1 ?_
      unfold underway
      rw [show (k0.tcp.net v).outbox = k0.tcp.outbox from outbox_net _ _]
    | down v r a0 a1 =>
      refine same a1 ?_
      unfold underway
      rw [show (k0.tcp.net v).outbox = k0.tcp.outbox from outbox_net _ _]
    | up m m' r a0 a1 a2 =>
      have hc : s ∉ x.sys.closed := hl.1
      unfold coming at h0 ⊢
      rw [a2]
      rw [if_neg hc] at h0 ⊢
      have hq : queued s (x.sys.queue ++ [(m', s)]) = queued s x.sys.queue ++ [m'] := by
        rw [queued_append]; simp [queued]
      have hu : underway k0 = m' :: underway { k0 with tcp := { k0.tcp with outbox := r } } := by
        unfold underway
        rw [a0, List.filterMap_cons, a1]
      dsimp only
      rw [hq, List.append_assoc]
      rw [hu] at h0
      exact h0
    | bye r a0 a1 =>
      refine same a1 ?_
      unfold underway
      rw [a0, List.filterMap_cons]
      rfl
    | other e q a1 a2 a3 a4 =>
      unfold coming at h0 ⊢
      rw [a1, a2, queued_append, a3, List.append_nil]
      by_cases hc : s ∈ x.sys.closed
      · rw [if_pos hc] at h0
        rw [if_pos (a4 s hc)]
        exact h0
      · rw [if_neg hc] at h0
        split
        · rw [List.append_nil]
          exact h0.shorter (fun _ h => h)
        · exact h0
    | loop l os a1 a2 a3 =>
      obtain ⟨es, hrun⟩ := hi.run
      have hl' : LegalEv g c x.sys (.loop l) := ⟨hl.1, hl.2.1⟩
      obtain ⟨ks, hsrun⟩ := hrun.srun
      obtain ⟨o, p, os', h1, tk, ho, ef, hh⟩ :=
        iteration_effect hg (hsrun.inv hg) (goodTick_of hrun hl') (loop_iteration a2)
      obtain ⟨_, _, _, hcl, hq, _⟩ := loop_parts a2
      have hund : underway (if s ∈ x.sys.closed then k0 else { k0 with down := k0.down ++ os.filterMap (downOf s) }) =
          underway k0 := by split <;> rfl
      have hfin : ∀ w, LastOK s (w ++ if s ∈ x.sys.closed then [] else underway k0) y.sys.srv.pending →
          w = queued s y.sys.queue → LastOK s
            (coming y s (if s ∈ x.sys.closed then k0 else { k0 with down := k0.down ++ os.filterMap (downOf s) }))
            y.sys.srv.pending := by
        intro w hw e
        unfold coming
        rw [← e, hund]
        by_cases hc : s ∈ x.sys.closed
        · have hc' : s ∈ y.sys.closed := by rw [hcl]; exact List.mem_append_left _ hc
          rw [if_pos hc] at hw
          rw [if_pos hc']
          exact hw
        · rw [if_neg hc] at hw
          split
          · rw [List.append_nil]; exact hw.shorter (fun _ h => h)
          · exact hw
      have tk' : Takes c.cfg x.sys.srv x.sys.recv.1 o p := tk
      unfold coming at h0
      rcases recv_takes tk' with ⟨m, s0, q, rfl, eq, er, rfl⟩ | ⟨rfl, er, rfl⟩ | ⟨t, s0, rest, rfl, er, ht, hp, rfl⟩
      · refine hfin (queued s q) ?_ (by rw [hq, er])
        by_cases hs0 : s = s0
        · subst hs0
          rw [eq, queued_cons_self, List.cons_append] at h0
          have hnp : ∀ t, s ∉ x.sys.srv.pending t := fun t ht => by have := h0.wait t ht; cases this
          have hret : y.sys.srv.pending = x.sys.srv.pending → LastOK s
              (queued s q ++ if s ∈ x.sys.closed then [] else underway k0) y.sys.srv.pending := by
            intro e
            rw [e]
            exact ⟨fun a t b e => h0.last (m :: a) t b (by rw [e]; rfl), fun t ht => absurd ht (hnp t)⟩
          cases m with
          | acquire t =>
            rw [h0.last [] t _ rfl]
            exact LastOK.nil
          | release n st => exact hret ef.2.1
          | blockFailed n w => exact hret ef.2.1
          | clientException => exact absurd ef id
          | other => exact absurd ef id
        · rw [eq, queued_cons_ne m hs0] at h0
          obtain ⟨_, b2, b3⟩ := MsgEffect.others ef hs0
          exact h0.less (mem_of_count b2)
      · refine hfin (queued s x.sys.queue) ?_ (by rw [hq, er])
        rw [ef.2.1]
        exact h0
      · refine hfin (queued s x.sys.queue) ?_ (by rw [hq, er])
        by_cases hs0 : s = s0
        · subst hs0
          rw [h0.wait t (by rw [hp]; exact List.mem_cons_self)]
          exact LastOK.nil
        · obtain ⟨_, b2, b3⟩ := MsgEffect.others (m := .acquire t) ef hs0
          exact h0.less (mem_of_count (fun t' => (b2 t').trans (count_rest hp hs0 t')))

theorem ClRun.lastInv (hg : g.Loose) (h : ClRun g c es x) : LastInv x := by
  induction h with
  | init h =>
    intro s k hk
    unfold Cluster.init at h
    split at h
    · cases h
    · cases h; cases hk
  | step e hr hl hs ih => exact ih.step hg (ClRun.inv hg hr) hl hs

/-- A client to which a block is sent has said nothing after its request. -/
theorem handed_last (hg : g.Loose) (hi : ClInv g c x) (h : LastInv x) {l : LoopEnv N T S}
    (hl : LegalCl c x (.sys (.loop l))) (hz : x.sys.loop g c l = .ok y.sys) {s : S} {n : N}
    (hn : .send s n ∈ y.sys.srv.out.drop x.sys.srv.out.length) {k0 : Conn N T} (hk : x.conn s = some k0)
    (hc : s ∉ x.sys.closed) : queued s y.sys.queue = [] ∧ underway k0 = [] := by
  obtain ⟨es, hrun⟩ := hi.run
  have hl' : LegalEv g c x.sys (.loop l) := ⟨hl.1, hl.2.1⟩
  obtain ⟨ks, hsrun⟩ := hrun.srun
  obtain ⟨o, p, os, h1, tk, ho, ef, hh⟩ :=
    iteration_effect hg (hsrun.inv hg) (goodTick_of hrun hl') (loop_iteration hz)
  obtain ⟨_, _, _, _, hq, _⟩ := loop_parts hz
  rw [ho, List.drop_left] at hn
  have ha : (s, some n) ∈ os.filterMap ansOf := List.mem_filterMap.2 ⟨_, hn, rfl⟩
  have hacq : ∀ {t : T} {s0 : S} {p p' : T → List S} {h h' : N → Option S}, AcquireEffect g t s0 p p' h h' os → s = s0 := by
    intro t s0 p p' h h' he
    rcases he with ⟨m, _, _, e, _⟩ | ⟨e, _⟩ | ⟨e, _⟩
    · rw [e] at ha; cases List.mem_singleton.1 ha; rfl
    · rw [e] at ha; cases List.mem_singleton.1 ha
    · rw [e] at ha; cases ha
  have h0 := h s k0 hk
  unfold coming at h0
  rw [if_neg hc] at h0
  have tk' : Takes c.cfg x.sys.srv x.sys.recv.1 o p := tk
  rcases recv_takes tk' with ⟨m, s0, q, rfl, eq, er, rfl⟩ | ⟨rfl, er, rfl⟩ | ⟨t, s0, rest, rfl, er, ht, hp, rfl⟩
  · rw [hq, er]
    cases m with
    | acquire t =>
      obtain rfl := hacq ef
      rw [eq, queued_cons_self, List.cons_append] at h0
      exact List.append_eq_nil_iff.1 (h0.last [] t _ rfl)
    | release m st => rw [ef.1] at ha; cases ha
    | blockFailed m w => rw [ef.1] at ha; cases ha
    | clientException => exact absurd ef id
    | other => exact absurd ef id
  · rw [ef.1] at ha; cases ha
  · obtain rfl := hacq ef
    rw [hq, er]
    exact List.append_eq_nil_iff.1 (h0.wait t (by rw [hp]; exact List.mem_cons_self))

end Verif
