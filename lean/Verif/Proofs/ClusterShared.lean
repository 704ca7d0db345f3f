import Verif.Proofs.ClusterCalm
import Verif.Proofs.ClusterLast

/-! # Data when only processes with open connections write: helper lemmas -/

set_option linter.unusedSectionVars false

namespace Verif

open Spec

variable {N T K S L V : Type} [DecidableEq N] [DecidableEq T] [DecidableEq K] [DecidableEq S] [DecidableEq L]
  {g : DGraph N T K} {c : SysConf T} {es : List (ClEv N T S)} {x y : Cluster N T K S}
  {R W : N → L → Prop} {P : N → Prog L V} {D₀ D : L → V} {order : List N} {cur : S → Prog L V}

theorem holder_new {n : N} {s : S} (a : List (Out N T S)) : ∀ (os : List (Out N T S)),
    holder (a ++ os) n = some s → holder a n = some s ∨ .send s n ∈ os := by
  intro os
  induction os using List.reverseRecOn with
  | nil => intro h; rw [List.append_nil] at h; exact Or.inl h
  | append_singleton os o ih =>
    intro h
    rw [← List.append_assoc, holder_append] at h
    simp only [List.foldl_cons, List.foldl_nil] at h
    have old : holder (a ++ os) n = some s → holder a n = some s ∨ .send s n ∈ os ++ [o] :=
      fun h => (ih h).imp id (List.mem_append_left _)
    cases o with
    | send s' m =>
      simp only [holderStep] at h
      split_ifs at h with hm
      · injection h with h
        subst hm h
        exact Or.inr (by simp)
      · exact old h
    | release m st =>
      simp only [holderStep] at h
      split_ifs at h with hm
      exact old h
    | _ => exact old h

/-- A step of a client does not add to what it has to read. -/
theorem unread_step (k : Conn N T) (body : BodyEnd) : ∀ m ∈ unread (k.step body), m ∈ unread k := by
  suffices h : (k.step body).down = k.down ∧ ∀ m ∈ (k.step body).tcp.inbox, m ∈ k.tcp.inbox by
    intro m hm
    unfold unread at hm ⊢
    rw [h.1] at hm
    rcases List.mem_append.1 hm with hm | hm
    · exact List.mem_append_left _ (h.2 m hm)
    · exact List.mem_append_right _ hm
  have hex : ∀ n st e, (k.exits (Client.finish k.tcp n st e)).down = k.down ∧
      ∀ m ∈ (k.exits (Client.finish k.tcp n st e)).tcp.inbox, m ∈ k.tcp.inbox := by
    intro n st e
    unfold Client.finish
    dsimp only
    rcases send_cases k.tcp (.release n (if st ≠ .enum .success then .enum .failed else st)) with
      ⟨e', c', h1, h2, _⟩ | ⟨h1, _⟩
    · rw [h1]; exact ⟨rfl, fun m hm => by rw [← h2]; exact hm⟩
    · rw [h1]; cases e <;> exact ⟨rfl, fun m hm => hm⟩
  cases hph : k.phase with
  | idle =>
    simp only [Conn.step, hph]
    rcases send_cases k.tcp (.acquire k.task) with ⟨e', c', h1, h2, _⟩ | ⟨h1, _⟩
    · rw [h1]; exact ⟨rfl, fun m hm => by rw [← h2]; exact hm⟩
    · rw [h1]; exact ⟨rfl, fun m hm => hm⟩
  | waiting =>
    simp only [Conn.step, hph]
    rcases get_cases k.tcp with ⟨e', c', h1, h2, h3, h4, h5, h6⟩ | ⟨hc, ⟨hi, h1⟩ | ⟨m, r, hi, h1⟩⟩
    · rw [h1]
      cases e' <;> exact ⟨rfl, fun m hm => by rw [← h2]; exact hm⟩
    · rw [h1]; exact ⟨rfl, fun m hm => hm⟩
    · rw [h1]
      have hsub : ∀ m' ∈ r, m' ∈ k.tcp.inbox := fun m' hm' => by rw [hi]; exact List.mem_cons_of_mem _ hm'
      cases m with
      | other => exact ⟨rfl, hsub⟩
      | sendBlock b => exact ⟨rfl, hsub⟩
      | requestShutdown =>
        dsimp only
        split
        · exact ⟨rfl, hsub⟩
        · split
          · exact ⟨rfl, hsub⟩
          · exact ⟨rfl, hsub⟩
  | leaving =>
    simp only [Conn.step, hph]
    split
    · exact ⟨rfl, fun m hm => hm⟩
    · exact ⟨rfl, fun m hm => hm⟩
  | working n =>
    simp only [Conn.step, hph]
    cases hb : body.raised with
    | none => exact hex _ _ _
    | some e =>
      dsimp only
      split
      · rcases send_cases k.tcp (.blockFailed n e) with ⟨e', c', h1, h2, _⟩ | ⟨h1, h2⟩
        · rw [h1]; exact ⟨rfl, fun m hm => by rw [← h2]; exact hm⟩
        · rw [h1]; exact ⟨rfl, fun m hm => hm⟩
      · exact hex _ _ _
  | failing n e => simp only [Conn.step, hph]; exact hex _ _ _
  | ended e => simp only [Conn.step, hph]; exact ⟨by first | rfl | trivial, fun m hm => hm⟩
  | killed => simp only [Conn.step, hph]; exact ⟨by first | rfl | trivial, fun m hm => hm⟩

theorem inbox_net (t : TcpClient N T) (v : NetEv N) : ∀ m ∈ (t.net v).inbox, m ∈ t.inbox ∨ v = .arrives m := by
  intro m hm
  cases v with
  | arrives m' =>
    simp only [TcpClient.net] at hm
    split at hm
    · rcases List.mem_append.1 hm with hm | hm
      · exact Or.inl hm
      · exact Or.inr (by rw [List.mem_singleton.1 hm])
    · exact Or.inl hm
  | ack => exact Or.inl hm
  | fails err => simp only [TcpClient.net] at hm; split at hm <;> exact Or.inl hm
  | writeFails => exact Or.inl hm

/-- Only the event loop adds to what a client has to read. -/
theorem unread_eff {s : S} {k k' : Conn N T} {e : ClEv N T S} (hl : LegalCl c x e) (h : Eff g c x y s k e k') {m : ServerMsg N}
    (hm : m ∈ unread k') : m ∈ unread k ∨
      ∃ l, e = .sys (.loop l) ∧ ∃ os, y.sys.srv.out = x.sys.srv.out ++ os ∧ ∀ n, m = .sendBlock n → .send s n ∈ os := by
  cases h with
  | client body a1 a2 => exact Or.inl (unread_step k body m hm)
  | kill a1 => exact Or.inl hm
  | breaks v a1 =>
    left
    rcases List.mem_append.1 hm with h1 | h1
    · rcases inbox_net _ _ _ h1 with h2 | h2
      · exact List.mem_append_left _ h2
      · subst h2
        rcases hl.2 with ⟨_, h3, _⟩ | h3 <;> cases h3
    · exact List.mem_append_right _ h1
  | down v r a0 a1 =>
    left
    rcases List.mem_append.1 hm with h1 | h1
    · rcases inbox_net _ _ _ h1 with h2 | h2
      · exact List.mem_append_left _ h2
      · subst h2
        refine List.mem_append_right _ (List.mem_filterMap.2 ⟨_, by rw [a0]; exact List.mem_cons_self, rfl⟩)
    · obtain ⟨v', h2, h3⟩ := List.mem_filterMap.1 h1
      exact List.mem_append_right _ (List.mem_filterMap.2 ⟨v', by rw [a0]; exact List.mem_cons_of_mem _ h2, h3⟩)
  | up m m' r a0 a1 a2 => exact Or.inl hm
  | bye r a0 a1 =>
    left
    simpa [unread, List.filterMap_append] using hm
  | other e q a1 a2 a3 a4 => exact Or.inl hm
  | loop l os a1 a2 a3 =>
    split at hm
    · exact Or.inl hm
    · simp only [unread, List.filterMap_append, ← List.append_assoc] at hm
      rcases List.mem_append.1 hm with hm | hm
      · exact Or.inl hm
      · right
        refine ⟨l, rfl, os, a3, ?_⟩
        rintro n rfl
        obtain ⟨e, e1, e2⟩ := List.mem_filterMap.1 hm
        obtain ⟨o', e3, e4⟩ := List.mem_filterMap.1 e1
        cases o' with
        | send s' m =>
          simp only [downOf] at e4
          split_ifs at e4 with hs
          cases e4
          cases e2
          subst hs
          exact e3
        | shutdown s' t =>
          simp only [downOf] at e4
          split_ifs at e4 with hs
          cases e4
          cases e2
        | _ => cases e4

omit [DecidableEq S] in
/-- What a list of new events does if the data do not change. -/
theorem new_events (hg : g.Loose) (hd : Disciplined g R W P) (ho : Topological g order)
    (hoff : ∀ l, (∀ n ∈ g.nodes, ¬ W n l) → D l = D₀ l) : ∀ (new tr : List (Ev N)), Legal g (tr ++ new) →
    (∀ n ∈ g.nodes, .hand n ∉ tr → ∀ l, W n l → D l = D₀ l) →
    (∀ n ∈ g.nodes, Done tr n → Final (oneByOne P order D₀) W D n) →
    (∀ n, .good n ∈ new → Final (oneByOne P order D₀) W D n) → (∀ n, .skip n ∈ new → Present (P n) D) →
    (∀ n, .bad n ∈ tr ++ new → Restartable (W n) (P n)) →
    (∀ n ∈ g.nodes, Done (tr ++ new) n → Final (oneByOne P order D₀) W D n) ∧
    ∀ n, .hand n ∈ new → ∀ l, W n l → (P n).run D l = oneByOne P order D₀ l := by
  intro new
  induction new with
  | nil => intro tr _ _ h _ _ _; exact ⟨by simpa using h, fun n hn => by cases hn⟩
  | cons e new ih =>
    intro tr hl hf h hgood hskip hR
    have e1 : tr ++ e :: new = (tr ++ [e]) ++ new := by simp
    have hl' : Legal g tr := fun p f q hx => hl p f (q ++ e :: new) (by rw [hx]; simp)
    have hall : Allowed g tr e := hl tr e new rfl
    have hstart : ∀ n, Ready g tr n → ∀ l, W n l → (P n).run D l = oneByOne P order D₀ l := fun n hr =>
      ready_finds hg hd ho hoff hf h hl' hr (fun hb => hR n (List.mem_append_left _ hb))
    rw [e1] at hl hR ⊢
    obtain ⟨i1, i2⟩ := ih (tr ++ [e]) hl (fun n hn hh => hf n hn (fun h' => hh (List.mem_append_left _ h'))) (by
      intro n hn hdn
      by_cases hold : Done tr n
      · exact h n hn hold
      have hnew : e = .good n ∨ e = .skip n := by
        unfold Done at hdn hold
        simp only [List.mem_append, List.mem_singleton] at hdn
        rcases hdn with (h1 | h1) | (h1 | h1)
        · exact absurd (Or.inl h1) hold
        · exact Or.inl h1.symm
        · exact absurd (Or.inr h1) hold
        · exact Or.inr h1.symm
      rcases hnew with rfl | rfl
      · exact hgood n (by simp)
      · intro l hw
        rw [← hskip n (by simp) l]
        exact hstart n hall l hw) (fun n hn => hgood n (by simp [hn])) (fun n hn => hskip n (by simp [hn])) hR
    refine ⟨i1, fun n hn => ?_⟩
    rcases List.mem_cons.1 hn with rfl | hn
    · exact hstart n hall
    · exact i2 n hn

/-- What is known about the data. -/
structure OpenInv (g : DGraph N T K) (R W : N → L → Prop) (P : N → Prog L V) (D₀ F : L → V) (x : Cluster N T K S)
    (D : L → V) (cur : S → Prog L V) : Prop where
  off : ∀ l, (∀ n ∈ g.nodes, ¬ W n l) → D l = D₀ l
  fresh : ∀ n ∈ g.nodes, .hand n ∉ evs x.sys.srv.out → ∀ l, W n l → D l = D₀ l
  done : ∀ n ∈ g.nodes, Done (evs x.sys.srv.out) n → Final F W D n
  sent : ∀ s k n, x.conn s = some k → s ∉ x.sys.closed → holder x.sys.srv.out n = some s → .sendBlock n ∈ unread k →
    ∀ l, W n l → (P n).run D l = F l
  work : ∀ s k n, x.conn s = some k → s ∉ x.sys.closed → k.phase = .working n →
    (cur s).Uses (R n) (W n) ∧ ∀ l, W n l → (cur s).run D l = F l
  msg : MsgInv (fun s n B => s ∈ x.sys.closed ∨ ((∀ b, B b → EndsWell b) → holder x.sys.srv.out n = some s → Final F W D n))
    (fun s n => holder x.sys.srv.out n = some s → Final F W D n) x

/-- A message that gives a block back after it has failed says nothing about data. -/
theorem badly_trivial {A : Prop} (h : ∀ b : BodyEnd, ¬ EndsWell b → EndsWell b) : A := by
  have : ¬ EndsWell ⟨.enum .processing, some (.exception "")⟩ := by
    rintro (⟨h, _⟩ | ⟨e, _, _, h⟩) <;> cases h
  exact absurd (h _ this) this


/-- Restartable programs find what they need if only processes with an open connection write. -/
theorem ClDataRun.open (hg : g.Loose) (hd : Disciplined g R W P) (ho : Topological g order)
    (h : ClDataRun g c P D₀ OnlyOpen es x D cur) :
    (∀ n, .bad n ∈ evs x.sys.srv.out → Restartable (W n) (P n)) → OpenInv g R W P D₀ (oneByOne P order D₀) x D cur := by
  induction h with
  | init h =>
    intro _
    unfold Cluster.init at h
    split at h
    · cases h
    · next y hy =>
      cases h
      have hsrv : y.srv = Server.init g ∧ y.queue = [] := by
        unfold Sys.init at hy
        dsimp only at hy
        split at hy
        · cases hy
        · cases hy; exact ⟨rfl, rfl⟩
      have hevs : evs y.srv.out = [] := by
        rw [hsrv.1]
        exact (recruit_frame _).evs
      refine ⟨fun _ _ => rfl, fun _ _ _ _ _ => rfl, fun n _ hn => ?_, fun s k n hn => (by cases hn),
        fun s k n hn => (by cases hn), ⟨fun s k hk => (by cases hk), fun n s hm => ?_⟩⟩
      · dsimp only at hn
        rw [hevs] at hn
        rcases hn with hn | hn <;> cases hn
      · dsimp only at hm; rw [hsrv.2] at hm; cases hm
  | @event es x y D cur e hrun hl hs hsk hwell ih =>
    intro hR
    have hcl := ClDataRun.run hrun
    have hi := ClRun.inv hg hcl
    have hcl' : ClRun g c (es ++ [e]) y := .step e hcl hl hs
    obtain ⟨ks, hsr⟩ := ClRun.srun hg hcl'
    have hlegal := (loose_legal hg (hsr.inv hg).run)
    have hout := step_evs hg hi hl hs
    have hev : evs y.sys.srv.out = evs x.sys.srv.out ++ evs (y.sys.srv.out.drop x.sys.srv.out.length) := by
      conv_lhs => rw [hout]
      exact List.filterMap_append
    have ih := ih (fun n hn => hR n (by rw [hev]; exact List.mem_append_left _ hn))
    have hmsg := ih.msg.step hg hi hl hs (fun s body n he hw B hB => by
      by_cases hc : s ∈ x.sys.closed
      · exact Or.inl hc
      · refine Or.inr (fun hall _ => ?_)
        obtain ⟨k, hk, hp⟩ := id hw
        have hd' := hwell s body n he hw (hall body hB)
        intro l hl'
        have := (ih.work s k n hk hc hp).2 l hl'
        rw [hd'] at this
        exact this) (fun s n hc h => (h.resolve_left hc) (fun b hb => hb))
    have hnodes : ∀ n, holder y.sys.srv.out n ≠ none → n ∈ g.nodes := fun n hn => (hsr.inv hg).toSCore.mem hg hn
    have hgood : ∀ n, .good n ∈ evs (y.sys.srv.out.drop x.sys.srv.out.length) → Final (oneByOne P order D₀) W D n := by
      intro n hn
      have h1 : .release n .success ∈ y.sys.srv.out := by
        rw [hout]
        exact List.mem_append_right _ ((evs_at _ n).1 hn)
      rcases ih.msg.completed hg hi hl hs h1 with h2 | ⟨s, h2, h3⟩
      · have hnn : n ∈ g.nodes := by
          have h3 : Ev.good n ∈ evs y.sys.srv.out := List.mem_filterMap.2 ⟨_, h1, rfl⟩
          obtain ⟨pre, post, e1⟩ := List.append_of_mem h3
          have hh : Held pre n := hlegal pre (.good n) post e1
          unfold Held at hh
          obtain ⟨p1, p2, rfl⟩ := List.append_of_mem (List.count_pos_iff.1 (show 0 < pre.count (.hand n) by omega))
          exact (hlegal p1 (.hand n) (p2 ++ .good n :: post) (by rw [e1]; simp)).1
        exact ih.done n hnn (Or.inl (List.mem_filterMap.2 ⟨_, h2, rfl⟩))
      · exact h3 h2
    rw [hev] at hlegal hR
    obtain ⟨hdone, hhand⟩ := new_events hg hd ho ih.off _ _ hlegal ih.fresh ih.done hgood
      (fun n hn => hsk n ((evs_at _ n).2 hn)) hR
    rw [← hev] at hdone
    have hnew : ∀ s n, .send s n ∈ y.sys.srv.out.drop x.sys.srv.out.length →
        ∀ l, W n l → (P n).run D l = oneByOne P order D₀ l := fun s n hn =>
      hhand n (List.mem_filterMap.2 ⟨_, hn, rfl⟩)
    have hold : ∀ n s, holder y.sys.srv.out n = some s → holder x.sys.srv.out n = some s ∨
        .send s n ∈ y.sys.srv.out.drop x.sys.srv.out.length := by
      intro n s hn
      rw [hout] at hn
      exact holder_new _ _ hn
    have hopen : ∀ s, s ∉ y.sys.closed → s ∉ x.sys.closed := fun s h1 h2 => h1 (step_closed hl hs s h2)
    -- if a block was sent just now, there are no messages of its client
    have hquiet : ∀ s k' n, y.conn s = some k' → s ∉ y.sys.closed →
        .send s n ∈ y.sys.srv.out.drop x.sys.srv.out.length → queued s y.sys.queue = [] ∧ underway k' = [] := by
      intro s k' n hk' hc hn
      rcases step_out hl hs with ⟨l, rfl, hz⟩ | e1
      · rcases hx : x.conn s with _ | k
        · obtain ⟨t, w, h1⟩ := connect_of_none hs hx hk'
          cases h1
        · obtain ⟨q1, q2⟩ := handed_last hg hi (ClRun.lastInv hg hcl) hl hz hn hx (hopen s hc)
          obtain ⟨k1, e1, e2⟩ := eff_of_step hg hi hl hs hx
          rw [hk'] at e1
          cases e1
          refine ⟨q1, ?_⟩
          cases e2 with
          | loop l os a1 a2 a3 => split <;> exact q2
          | other _ _ _ _ _ _ _ _ _ _ _ h => exact absurd rfl (h l)
      · rw [e1, List.drop_length] at hn
        cases hn
    refine ⟨ih.off, fun n hn hh => ih.fresh n hn (fun h => hh (by rw [hev]; exact List.mem_append_left _ h)), hdone,
      ?_, ?_, ⟨fun s k' hk' => ?_, fun n s hm hn => ?_⟩⟩
    · intro s k' n hk' hc hn hu
      rcases hold n s hn with hn' | hn'
      · rcases hx : x.conn s with _ | k
        · obtain ⟨t, w, rfl⟩ := connect_of_none hs hx hk'
          cases hs
          simp only [upd, if_true] at hk'
          cases hk'
          cases hu
        · obtain ⟨k1, e1, e2⟩ := eff_of_step hg hi hl hs hx
          rw [hk'] at e1
          cases e1
          rcases unread_eff hl e2 hu with h1 | ⟨l, rfl, os, h1, h2⟩
          · exact ih.sent s k n hx (hopen s hc) hn' h1
          · refine hnew s n ?_
            rw [h1, List.drop_left]
            exact h2 n rfl
      · exact hnew s n hn'
    · intro s k' n hk' hc hp
      have hw : workOf y s = some n := workOf_iff.2 ⟨k', hk', hp⟩
      rcases hwx : workOf x s with _ | m
      · obtain ⟨k, body, hk, hh, hph, rfl⟩ := starts_has hg hi hl hs hwx hw
        have e1 : begun P x y cur s = P n := by
          unfold begun
          rw [hw, hwx]
          exact if_pos rfl
        rw [e1]
        have hu : .sendBlock n ∈ unread k := by
          rcases hh with h1 | h1 | ⟨e, h1⟩
          · exact h1
          · rw [hph] at h1; cases h1
          · rw [hph] at h1; cases h1
        have ht := (hi.conn s k hk).talk (hopen s hc)
        unfold Talk at ht
        rw [hph] at ht
        have hn : holder x.sys.srv.out n = some s := by
          rcases ht with ⟨_, _, _, _, h1⟩ | ⟨_, _, h1⟩ | ⟨_, _, m, h1, h2⟩ | ⟨_, _, _, h1⟩
          · rw [h1] at hu; cases hu
          · rw [h1] at hu; cases hu
          · rw [h1] at hu
            exact h2 n (List.mem_singleton.1 hu).symm
          · rw [h1] at hu; cases hu
        obtain ⟨ks', hsr'⟩ := ClRun.srun hg hcl
        have hnn : n ∈ g.nodes := (hsr'.inv hg).toSCore.mem hg (by rw [hn]; exact Option.some_ne_none _)
        exact ⟨hd.uses n hnn, ih.sent s k n hk (hopen s hc) hn hu⟩
      · obtain ⟨rfl, -⟩ := works_on hg hi hl hs hwx hw
        have e1 : begun P x y cur s = cur s := by
          unfold begun
          rw [hw, hwx]
          exact if_neg (by simp)
        rw [e1]
        obtain ⟨k, hk, hp⟩ := workOf_iff.1 hwx
        exact ih.work s k m hk (hopen s hc) hp
    · have h0 := hmsg.conn s k' hk'
      refine ⟨fun n hm => ?_, fun n m _ _ => Or.inr badly_trivial, fun n e _ => Or.inr badly_trivial⟩
      by_cases hc : s ∈ y.sys.closed
      · exact Or.inl hc
      · refine Or.inr (fun hb hn => ?_)
        rcases hold n s hn with hn' | hn'
        · exact ((h0.well n hm).resolve_left (hopen s hc)) hb hn'
        · have := (hquiet s k' n hk' hc hn').2
          rw [this] at hm
          cases hm
    · rcases hold n s hn with hn' | hn'
      · exact hmsg.queue n s hm hn'
      · have hc : s ∉ y.sys.closed := by
          rcases step_out hl hs with ⟨l, rfl, hz⟩ | e1
          · obtain ⟨os, h1, a1, a2, a3, -⟩ := loop_view hg hi hl hz s
            intro hc
            rw [a2] at hn
            split at hn
            · cases hn
            · next hno => exact hno ⟨s, hn, hc⟩
          · rw [e1, List.drop_length] at hn'
            cases hn'
        rcases hy : y.conn s with _ | k'
        · exact absurd hn (((ClRun.inv hg hcl').fresh s hy).2.2 n)
        · have h1 := (hquiet s k' n hy hc hn').1
          have h2 : Msg.release n .success ∈ queued s y.sys.queue := List.mem_filterMap.2 ⟨_, hm, by simp⟩
          rw [h1] at h2
          cases h2
  | @work es x D D' cur s n q hrun hmay hw hq ih =>
    intro hR
    have ih := ih hR
    have hcl := ClDataRun.run hrun
    have hi := ClRun.inv hg hcl
    obtain ⟨k, hk, hp⟩ := hw
    have hc : s ∉ x.sys.closed := hmay
    have ht := (hi.conn s k hk).talk hc
    unfold Talk at ht
    rw [hp] at ht
    obtain ⟨t1, t2, t3, t4⟩ := ht
    obtain ⟨c1, c2⟩ := ih.work s k n hk hc hp
    obtain ⟨s1, s2, s3⟩ := Prog.uses_step c1 hq
    obtain ⟨ks, hsr⟩ := ClRun.srun hg hcl
    have hsi := hsr.inv hg
    have hl := (loose_legal hg hsi.run)
    have hmem : ∀ m, holder x.sys.srv.out m ≠ none → m ∈ g.nodes ∧ ¬ Done (evs x.sys.srv.out) m ∧
        Ev.hand m ∈ evs x.sys.srv.out ∧ ∀ u ∈ g.up m, Done (evs x.sys.srv.out) u := by
      intro m hm
      have hh := (hsi.held m).2 hm
      have hhd : Ev.hand m ∈ evs x.sys.srv.out := by
        unfold Held at hh
        exact List.count_pos_iff.1 (by omega)
      obtain ⟨pre, post, e⟩ := List.append_of_mem hhd
      have hr : Ready g pre m := hl pre _ post e
      exact ⟨hr.1, ((C19_loose_disjoint_partial hg hsi.run m).2.1 hh).1, hhd, fun u hu =>
        (hr.2.1 u hu).imp (fun h => e ▸ List.mem_append_left _ h) (fun h => e ▸ List.mem_append_left _ h)⟩
    obtain ⟨n1, n2, n3, n4⟩ := hmem n (by rw [t4]; exact Option.some_ne_none _)
    have hsame : ∀ l, ¬ W n l → D' l = D l := fun l hw => by
      by_contra h
      exact hw (s2 l h)
    have hfin : ∀ m ∈ g.nodes, m ≠ n → Final (oneByOne P order D₀) W D m → Final (oneByOne P order D₀) W D' m := by
      intro m hm hne h l hw
      rw [hsame l (fun h' => hne (hd.apart m hm n n1 l hw h'))]
      exact h l hw
    have hprog : ∀ m, holder x.sys.srv.out m ≠ none → m ≠ n → ∀ r : Prog L V, r.Uses (R m) (W m) →
        (∀ l, W m l → r.run D l = oneByOne P order D₀ l) → ∀ l, W m l → r.run D' l = oneByOne P order D₀ l := by
      intro m hm hne r hr h l hw
      obtain ⟨m1, m2, m3, m4⟩ := hmem m hm
      rw [← h l hw]
      refine Prog.run_congr hr (fun a ha => hsame a (fun hna => ?_)) l (Or.inr hw)
      rcases ha with ha | ha
      · rcases hd.ordered n n1 m m1 a hna ha (Ne.symm hne) with h' | h'
        · exact n2 (legal_anc_done hl m4 h')
        · exact m2 (legal_anc_done hl n4 h')
      · exact hne (hd.apart m m1 n n1 a ha hna)
    have hqu : queued s x.sys.queue = [] ∧ underway k = [] := List.append_eq_nil_iff.1 t1
    have hback : ∀ s' m, holder x.sys.srv.out m = some s' → m ≠ n → Final (oneByOne P order D₀) W D m →
        Final (oneByOne P order D₀) W D' m := fun s' m hm hne =>
      hfin m (hmem m (by rw [hm]; exact Option.some_ne_none _)).1 hne
    refine ⟨fun l h => ?_, fun m hm h l hw => ?_, fun m hm h => ?_, fun s' k' m hk' hc' hm hu => ?_,
      fun s' k' m hk' hc' hp' => ?_, ⟨fun s' k' hk' => ?_, fun m s' hm hh => ?_⟩⟩
    · rw [hsame l (h n n1), ih.off l h]
    · rw [hsame l (fun h' => ?_), ih.fresh m hm h l hw]
      have := hd.apart m hm n n1 l hw h'
      subst this
      exact h n3
    · exact hfin m hm (fun e => n2 (e ▸ h)) (ih.done m hm h)
    · have hne : m ≠ n := by
        rintro rfl
        rw [t4] at hm
        cases hm
        rw [hk] at hk'
        cases hk'
        rw [t3] at hu
        cases hu
      have hm' : holder x.sys.srv.out m ≠ none := by rw [hm]; exact Option.some_ne_none _
      exact hprog m hm' hne _ (hd.uses m (hmem m hm').1) (ih.sent s' k' m hk' hc' hm hu)
    · by_cases e : s' = s
      · subst e
        rw [hk] at hk'
        cases hk'
        rw [hp] at hp'
        cases hp'
        have e1 : upd cur s' q s' = q := if_pos rfl
        rw [e1, s3]
        exact ⟨s1, c2⟩
      · have e1 : upd cur s q s' = cur s' := if_neg e
        rw [e1]
        have ht' := (hi.conn s' k' hk').talk hc'
        unfold Talk at ht'
        rw [hp'] at ht'
        have hm := ht'.2.2.2
        have hne : m ≠ n := by
          rintro rfl
          rw [t4] at hm
          cases hm
          exact e rfl
        obtain ⟨w1, w2⟩ := ih.work s' k' m hk' hc' hp'
        exact ⟨w1, hprog m (by rw [hm]; exact Option.some_ne_none _) hne _ w1 w2⟩
    · have h0 := ih.msg.conn s' k' hk'
      refine ⟨fun m hm => ?_, fun n m _ _ => Or.inr badly_trivial, fun n e _ => Or.inr badly_trivial⟩
      rcases h0.well m hm with h1 | h1
      · exact Or.inl h1
      · refine Or.inr (fun hb hh => ?_)
        refine hback s' m hh ?_ (h1 hb hh)
        rintro rfl
        rw [t4] at hh
        cases hh
        rw [hk] at hk'
        cases hk'
        rw [hqu.2] at hm
        cases hm
    · refine hback s' m hh ?_ (ih.msg.queue m s' hm hh)
      rintro rfl
      rw [t4] at hh
      cases hh
      have h2 : Msg.release m .success ∈ queued s x.sys.queue := List.mem_filterMap.2 ⟨_, hm, by simp⟩
      rw [hqu.1] at h2
      cases h2

end Verif
