import Verif.Proofs.ClusterInv

/-! # One event, seen by one client -/

set_option linter.unusedSectionVars false

namespace Verif

open Spec

variable {N T K S : Type} [DecidableEq N] [DecidableEq T] [DecidableEq K] [DecidableEq S]
  {g : DGraph N T K} {c : SysConf T} {es : List (ClEv N T S)} {x y : Cluster N T K S}

/-- What event `e` does to connection `s`, whose state is `k` before. -/
inductive Eff (g : DGraph N T K) (c : SysConf T) (x y : Cluster N T K S) (s : S) (k : Conn N T) :
    ClEv N T S → Conn N T → Prop where
  | client (body : BodyEnd) : y.sys = x.sys → ¬ Phase.Over k.phase → Eff g c x y s k (.client s body) (k.step body)
  | kill : y.sys = x.sys → Eff g c x y s k (.kill s) { k with phase := .killed }
  | breaks (v : NetEv N) : y.sys = x.sys → Eff g c x y s k (.breaks s v) { k with tcp := k.tcp.net v }
  | down (v : NetEv N) (r : List (NetEv N)) : k.down = v :: r → y.sys = x.sys →
      Eff g c x y s k (.down s) { k with tcp := k.tcp.net v, down := r }
  | up (m : ClientMsg N T) (m' : Msg N T) (r : List (ClientMsg N T)) : k.tcp.outbox = m :: r →
      Conn.toMsg k.worker m = some m' → y.sys = { x.sys with queue := x.sys.queue ++ [(m', s)] } →
      Eff g c x y s k (.up s) { k with tcp := { k.tcp with outbox := r } }
  | bye (r : List (ClientMsg N T)) : k.tcp.outbox = .disconnect :: r → y.sys = x.sys →
      Eff g c x y s k (.up s) { k with tcp := { k.tcp with outbox := r }, down := k.down ++ [.ack], gone := true }
  | loop (l : LoopEnv N T S) (os : List (Out N T S)) : LegalCl c x (.sys (.loop l)) → x.sys.loop g c l = .ok y.sys →
      y.sys.srv.out = x.sys.srv.out ++ os →
      Eff g c x y s k (.sys (.loop l))
        (if s ∈ x.sys.closed then k else { k with down := k.down ++ os.filterMap (downOf s) })
  | other (e : ClEv N T S) (q : List (Msg N T × S)) : y.sys.srv = x.sys.srv → y.sys.queue = x.sys.queue ++ q →
      queued s q = [] → (∀ a ∈ x.sys.closed, a ∈ y.sys.closed) →
      (∀ body, e ≠ .client s body) → e ≠ .kill s → (∀ v, e ≠ .breaks s v) → e ≠ .down s → e ≠ .up s →
      (∀ l, e ≠ .sys (.loop l)) → Eff g c x y s k e k

theorem toMsg_none {w : Nat} {m : ClientMsg N T} (h : Conn.toMsg w m = none) : m = .disconnect := by
  cases m with
  | disconnect => rfl
  | release b st => cases st <;> cases h
  | _ => cases h

theorem deliver_same (x' : Sys N T K S) (conn : S → Option (Conn N T)) (l : List (Out N T S)) :
    Cluster.deliver x' conn (l.drop l.length) = conn := by
  funext s
  unfold Cluster.deliver
  rw [List.drop_length]
  rcases conn s with _ | k
  · rfl
  · simp

theorem eff_of_step (hg : g.Loose) (h : ClInv g c x) {e : ClEv N T S} (hl : LegalCl c x e) (hs : x.step g c e = .ok y)
    {s : S} {k : Conn N T} (hk : x.conn s = some k) : ∃ k', y.conn s = some k' ∧ Eff g c x y s k e k' := by
  cases e with
  | connect s' t w =>
    cases hs
    have hne : s ≠ s' := by rintro rfl; rw [hl.1] at hk; cases hk
    refine ⟨k, by simp only [upd, hne, if_false]; exact hk, .other _ [] rfl (by simp) rfl (fun _ h => h) ?_ ?_ ?_ ?_ ?_ ?_⟩ <;>
      simp
  | client s' body =>
    cases hs
    by_cases he : s = s'
    · subst he
      obtain ⟨k0, h0, h1⟩ := hl
      rw [hk] at h0; cases h0
      exact ⟨k.step body, by simp [Cluster.modify, upd, hk], .client body rfl h1⟩
    · have he' : ¬ s' = s := fun h => he h.symm
      refine ⟨k, by simp only [Cluster.modify, upd, he, if_false]; exact hk,
        .other _ [] rfl (by simp [Cluster.modify]) rfl (fun _ h => h) ?_ ?_ ?_ ?_ ?_ ?_⟩ <;> simp [he']
  | kill s' =>
    cases hs
    by_cases he : s = s'
    · subst he
      exact ⟨_, by simp only [Cluster.modify, upd, if_true, hk, Option.map_some], .kill rfl⟩
    · have he' : ¬ s' = s := fun h => he h.symm
      refine ⟨k, by simp only [Cluster.modify, upd, he, if_false]; exact hk,
        .other _ [] rfl (by simp [Cluster.modify]) rfl (fun _ h => h) ?_ ?_ ?_ ?_ ?_ ?_⟩ <;> simp [he']
  | breaks s' v =>
    cases hs
    by_cases he : s = s'
    · subst he
      exact ⟨_, by simp only [Cluster.modify, upd, if_true, hk, Option.map_some], .breaks v rfl⟩
    · have he' : ¬ s' = s := fun h => he h.symm
      refine ⟨k, by simp only [Cluster.modify, upd, he, if_false]; exact hk,
        .other _ [] rfl (by simp [Cluster.modify]) rfl (fun _ h => h) ?_ ?_ ?_ ?_ ?_ ?_⟩ <;> simp [he']
  | down s' =>
    cases hs
    by_cases he : s = s'
    · subst he
      obtain ⟨k0, h0, h1⟩ := hl
      rw [hk] at h0; cases h0
      obtain ⟨v, r, hd⟩ := List.exists_cons_of_ne_nil h1
      refine ⟨Cluster.recvDown k, by simp only [Cluster.modify, upd, if_true, hk, Option.map_some], ?_⟩
      have := Eff.down (g := g) (c := c) (x := x) (y := x.modify s Cluster.recvDown) (s := s) (k := k) v r hd rfl
      unfold Cluster.recvDown
      rw [hd]
      exact this
    · have he' : ¬ s' = s := fun h => he h.symm
      refine ⟨k, by simp only [Cluster.modify, upd, he, if_false]; exact hk,
        .other _ [] rfl (by simp [Cluster.modify]) rfl (fun _ h => h) ?_ ?_ ?_ ?_ ?_ ?_⟩ <;> simp [he']
  | up s' =>
    cases hs
    obtain ⟨hc, k0, h0, hgone, hne⟩ := hl
    obtain ⟨m, r, ho⟩ := List.exists_cons_of_ne_nil hne
    by_cases he : s = s'
    · subst he
      rw [hk] at h0; cases h0
      cases hm : Conn.toMsg k.worker m with
      | some m' =>
        have e1 : x.up s = ⟨{ x.sys with queue := x.sys.queue ++ [(m', s)] },
            upd x.conn s (some { k with tcp := { k.tcp with outbox := r } })⟩ := by
          unfold Cluster.up
          rw [hk]
          dsimp only
          rw [ho]
          dsimp only
          rw [hm]
        rw [e1]
        exact ⟨_, by simp [upd], .up m m' r ho hm rfl⟩
      | none =>
        have e1 : x.up s = { x with conn := upd x.conn s (some { k with
            tcp := { k.tcp with outbox := r }, down := k.down ++ [.ack], gone := true }) } := by
          unfold Cluster.up
          rw [hk]
          dsimp only
          rw [ho]
          dsimp only
          rw [hm]
        rw [e1]
        refine ⟨_, by simp only [upd, if_true], .bye r ?_ rfl⟩
        rw [ho, toMsg_none hm]
    · have he' : ¬ s' = s := fun h => he h.symm
      cases hm : Conn.toMsg k0.worker m with
      | some m' =>
        have e1 : x.up s' = ⟨{ x.sys with queue := x.sys.queue ++ [(m', s')] },
            upd x.conn s' (some { k0 with tcp := { k0.tcp with outbox := r } })⟩ := by
          unfold Cluster.up
          rw [h0]
          dsimp only
          rw [ho]
          dsimp only
          rw [hm]
        rw [e1]
        refine ⟨k, by simp only [upd, he, if_false]; exact hk,
          .other _ [(m', s')] rfl rfl (by simp [queued, he']) (fun _ h => h) ?_ ?_ ?_ ?_ ?_ ?_⟩ <;> simp [he']
      | none =>
        have e1 : x.up s' = { x with conn := upd x.conn s' (some { k0 with
            tcp := { k0.tcp with outbox := r }, down := k0.down ++ [.ack], gone := true }) } := by
          unfold Cluster.up
          rw [h0]
          dsimp only
          rw [ho]
          dsimp only
          rw [hm]
        rw [e1]
        refine ⟨k, by simp only [upd, he, if_false]; exact hk,
          .other _ [] rfl (by simp) rfl (fun _ h => h) ?_ ?_ ?_ ?_ ?_ ?_⟩ <;> simp [he']
  | sys e =>
    cases e with
    | arrive m s => exact absurd hl id
    | close s' =>
      simp only [Cluster.step, Sys.step] at hs
      cases hs
      rw [deliver_same]
      refine ⟨k, hk, .other _ [] rfl (by simp) rfl (fun _ h => List.mem_append_left _ h) ?_ ?_ ?_ ?_ ?_ ?_⟩ <;> simp
    | proc p =>
      simp only [Cluster.step, Sys.step] at hs
      cases hs
      rw [deliver_same]
      refine ⟨k, hk, .other _ [] rfl (by simp) rfl (fun _ h => h) ?_ ?_ ?_ ?_ ?_ ?_⟩ <;> simp
    | loop l =>
      simp only [Cluster.step] at hs
      split at hs
      · cases hs
      · next z hz =>
        cases hs
        obtain ⟨es, hrun⟩ := h.run
        have hl' : LegalEv g c x.sys (.loop l) := ⟨hl.1, hl.2.1⟩
        obtain ⟨ks, hsrun⟩ := hrun.srun
        obtain ⟨o, p, os, h1, tk, ho, ef, hh⟩ :=
          iteration_effect hg (hsrun.inv hg) (goodTick_of hrun hl') (loop_iteration hz)
        have hdrop : z.srv.out.drop x.sys.srv.out.length = os := by rw [ho, List.drop_left]
        rw [hdrop]
        refine ⟨_, ?_, .loop l os hl hz ho⟩
        simp only [Cluster.deliver, hk, Option.map_some]

/-- Only by `connect` there are new connections. -/
theorem connect_of_none {e : ClEv N T S} (hs : x.step g c e = .ok y) {s : S} {k : Conn N T} (h1 : x.conn s = none)
    (h2 : y.conn s = some k) : ∃ t w, e = .connect s t w := by
  have hm : ∀ s' f, (x.modify s' f).conn s = some k → False := by
    intro s' f h
    by_cases he : s = s'
    · subst he; simp [Cluster.modify, upd, h1] at h
    · simp [Cluster.modify, upd, he, h1] at h
  cases e with
  | connect s' t w =>
    cases hs
    by_cases he : s = s'
    · subst he; exact ⟨t, w, rfl⟩
    · simp only [upd, he, if_false] at h2
      rw [h1] at h2; cases h2
  | client s' body => cases hs; exact absurd h2 (hm _ _)
  | kill s' => cases hs; exact absurd h2 (hm _ _)
  | breaks s' v => cases hs; exact absurd h2 (hm _ _)
  | down s' => cases hs; exact absurd h2 (hm _ _)
  | up s' =>
    cases hs
    unfold Cluster.up at h2
    split at h2
    · rw [h1] at h2; cases h2
    · next k0 hk0 =>
      have he : s ≠ s' := by rintro rfl; rw [h1] at hk0; cases hk0
      split at h2
      · rw [h1] at h2; cases h2
      · dsimp only at h2
        split at h2 <;> simp only [upd, he, if_false] at h2 <;> rw [h1] at h2 <;> cases h2
  | sys e =>
    simp only [Cluster.step] at hs
    split at hs
    · cases hs
    · cases hs
      simp only [Cluster.deliver, h1, Option.map_none] at h2
      cases h2

theorem takes_some {cfg : SConf T} {σ : Server N T K S} {r : Server.Recv N T S} {m : Msg N T} {s : S} {p : T → List S}
    (h : Takes cfg σ r (some (m, s)) p) : r = .msg m s ∨ r = .nothing := by
  generalize ho : some (m, s) = o at h
  cases h with
  | msg m s => cases ho; exact Or.inl rfl
  | closed => cases ho
  | idle => cases ho
  | again => exact Or.inr rfl

theorem recv_nothing {y : Sys N T K S} (h : y.recv.1 = .nothing) : y.queue = [] := by
  unfold Sys.recv at h
  split at h
  · cases h
  · split at h
    · assumption
    · cases h

/-- What an iteration does for client `s`: `h1` says who has which block before lost blocks are looked for. -/
theorem loop_view (hg : g.Loose) (h : ClInv g c x) {l : LoopEnv N T S} (hl : LegalCl c x (.sys (.loop l)))
    {z : Sys N T K S} (hz : x.sys.loop g c l = .ok z) (s : S) :
    ∃ os h1, z.srv.out = x.sys.srv.out ++ os ∧
      (∀ n, holder z.srv.out n = if ∃ s, h1 n = some s ∧ s ∈ z.closed then none else h1 n) ∧
      (∀ a ∈ x.sys.closed, a ∈ z.closed) ∧
      ((∃ m q, x.sys.recv.1 = .msg m s ∧ x.sys.queue = (m, s) :: q ∧ z.queue = q ∧
          MsgEffect g s x.sys.srv.pending z.srv.pending (holder x.sys.srv.out) h1 os m) ∨
        (∃ t rest, x.sys.srv.pending t = s :: rest ∧ z.queue = x.sys.queue ∧
          MsgEffect g s (upd x.sys.srv.pending t rest) z.srv.pending (holder x.sys.srv.out) h1 os (.acquire t)) ∨
        ((∀ m, x.sys.recv.1 ≠ .msg m s) ∧ queued s z.queue = queued s x.sys.queue ∧
          (∀ n, h1 n = some s ↔ holder x.sys.srv.out n = some s) ∧
          (∀ t, (z.srv.pending t).count s = (x.sys.srv.pending t).count s) ∧ os.filterMap (downOf s) = [])) := by
  obtain ⟨es, hrun⟩ := h.run
  have hl' : LegalEv g c x.sys (.loop l) := ⟨hl.1, hl.2.1⟩
  obtain ⟨ks, hsrun⟩ := hrun.srun
  obtain ⟨o, p, os, h1, tk, ho, ef, hh⟩ := iteration_effect hg (hsrun.inv hg) (goodTick_of hrun hl') (loop_iteration hz)
  obtain ⟨_, _, _, hcl, hq, _⟩ := loop_parts hz
  refine ⟨os, h1, ho, ?_, ?_, ?_⟩
  · intro n
    rw [hh]
    simp only [Sys.tickOf, decide_eq_true_eq, hcl]
  · intro a ha
    rw [hcl]
    exact List.mem_append_left _ ha
  · rw [hq]
    have tk' : Takes c.cfg x.sys.srv x.sys.recv.1 o p := tk
    have hmsg : ∀ m, x.sys.recv.1 = .msg m s → ∃ q, x.sys.queue = (m, s) :: q := by
      intro m hm
      unfold Sys.recv at hm
      split at hm
      · cases hm
      · split at hm
        · cases hm
        · next m' s' q hq => cases hm; exact ⟨q, hq⟩
    rcases recv_takes tk' with ⟨m, s0, q, rfl, eq, er, rfl⟩ | ⟨rfl, er, rfl⟩ | ⟨t, s0, rest, rfl, er, ht, hp, rfl⟩
    · by_cases hs : s = s0
      · subst hs
        left
        refine ⟨m, q, ?_, eq, er, ef⟩
        rcases takes_some tk' with hr | hr
        · exact hr
        · rw [recv_nothing hr] at eq; cases eq
      · right; right
        obtain ⟨a1, a2, a3⟩ := MsgEffect.others ef hs
        refine ⟨?_, ?_, a3, a2, a1⟩
        · intro m' hm'
          obtain ⟨q', hq'⟩ := hmsg m' hm'
          rw [eq] at hq'
          cases hq'
          exact hs rfl
        · rw [er, eq, queued_cons_ne m hs]
    · right; right
      obtain ⟨a1, a2, a3⟩ := ef
      refine ⟨?_, by rw [er], fun n => by rw [a3], fun t => by rw [a2], by rw [downOf_ans, a1]; rfl⟩
      intro m hm
      rw [hm] at tk'
      cases tk'
    · by_cases hs : s = s0
      · subst hs
        exact Or.inr (Or.inl ⟨t, rest, hp, er, ef⟩)
      · right; right
        obtain ⟨a1, a2, a3⟩ := MsgEffect.others (m := .acquire t) ef hs
        refine ⟨?_, by rw [er], a3, fun t' => (a2 t').trans (count_rest hp hs t'), a1⟩
        intro m hm
        rcases takes_some tk' with hr | hr
        · rw [hm] at hr; cases hr; exact hs rfl
        · rw [hm] at hr; cases hr

end Verif
