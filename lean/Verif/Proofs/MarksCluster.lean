import Verif.Proofs.Marks
import Verif.Proofs.ServerChecks
import Verif.Proofs.ClusterShared

/-! # Data and marks of the server with its workers -/

set_option linter.unusedSectionVars false

namespace Verif

open Spec

variable {N T K S L V : Type} [DecidableEq N] [DecidableEq T] [DecidableEq K] [DecidableEq S] [DecidableEq L]
  {g : DGraph N T K} {c : SysConf T} {es : List (ClEv N T S)} {x y : Cluster N T K S}
  {R W : N → L → Prop} {P : N → Prog L V} {D₀ D₁ D : L → V} {order : List N} {cur : S → Prog L V} {M₁ M H : N → Prop}

theorem ClMarkRun.run (h : ClMarkRun g c P D₁ M₁ es x D cur M) : ClRun g c es x := by
  induction h with
  | init h => exact .init h
  | event e _ hl hs _ _ ih => exact .step e ih hl hs
  | work _ _ _ _ ih => exact ih
  | mark _ _ _ _ ih => exact ih

theorem ClRun.init_evs (h : Cluster.init (N := N) (S := S) g c = .ok x) : evs x.sys.srv.out = [] := by
  unfold Cluster.init at h
  split at h
  · cases h
  · next y hy =>
    cases h
    have hsrv : y.srv = Server.init g := by
      unfold Sys.init at hy
      dsimp only at hy
      split at hy
      · cases hy
      · cases hy; rfl
    dsimp only
    rw [hsrv]
    exact (recruit_frame _).evs

/-- What is known about data and marks. -/
structure MarkInv (g : DGraph N T K) (R W : N → L → Prop) (P : N → Prog L V) (D₀ F : L → V) (H : N → Prop)
    (x : Cluster N T K S) (D : L → V) (cur : S → Prog L V) (M : N → Prop) : Prop where
  ground : Ground g W D₀ F (fun n => .hand n ∈ evs x.sys.srv.out ∨ H n) D M
  done : ∀ n, Done (evs x.sys.srv.out) n → M n
  sent : ∀ s k n, x.conn s = some k → s ∉ x.sys.closed → holder x.sys.srv.out n = some s → .sendBlock n ∈ unread k →
    ¬ M n ∧ ∀ l, W n l → (P n).run D l = F l
  work : ∀ s k n, x.conn s = some k → s ∉ x.sys.closed → k.phase = .working n →
    (cur s).Uses (R n) (W n) ∧ (∀ l, W n l → (cur s).run D l = F l) ∧ (M n → cur s = .done)
  msg : MsgInv (fun _ n B => (∀ b, B b → EndsWell b) → M n) (fun _ n => M n) x

/-- What is skipped is marked, what is sent is not. -/
theorem step_checks {e : ClEv N T S} (hl : LegalCl c x e) (hs : x.step g c e = .ok y)
    (hc : ∀ k, e = .sys (.loop k) → ∀ i n, k.chk i n = .accept ↔ M n) :
    ∀ o ∈ y.sys.srv.out.drop x.sys.srv.out.length, (∀ n, o = .skip n → M n) ∧ ∀ s n, o = .send s n → ¬ M n := by
  rcases step_out hl hs with ⟨l, rfl, hz⟩ | e1
  · obtain ⟨os, h1, h2⟩ := iteration_outStep (loop_iteration hz)
    rw [h1, List.drop_left]
    intro o ho
    have h3 := h2 o ho
    refine ⟨?_, ?_⟩
    · rintro n rfl
      obtain ⟨i, hi⟩ := h3
      exact (hc l rfl i n).1 hi
    · rintro s n rfl hm
      obtain ⟨i, hi⟩ := h3
      exact hi ((hc l rfl i n).2 hm)
  · rw [e1, List.drop_length]
    intro o ho
    cases ho

theorem ClMarkRun.inv (hg : g.Loose) (hd : Disciplined g R W P) (ho : Topological g order)
    (hR : ∀ n ∈ g.nodes, Restartable (W n) (P n)) (hstart : Ground g W D₀ (oneByOne P order D₀) H D₁ M₁)
    (h : ClMarkRun g c P D₁ M₁ es x D cur M) : MarkInv g R W P D₀ (oneByOne P order D₀) H x D cur M := by
  induction h with
  | init h =>
    unfold Cluster.init at h
    split at h
    · cases h
    · next y hy =>
      cases h
      have hsrv : y.srv = Server.init g ∧ y.queue = [] := by
        unfold Sys.init at hy
        dsimp only at hy
        split at hy
        · cases hy
        · cases hy; exact ⟨rfl, rfl⟩
      have hevs : evs y.srv.out = [] := by
        rw [hsrv.1]
        exact (recruit_frame _).evs
      refine ⟨hstart.congr (fun n => ?_), fun n hn => ?_, fun s k n hn => (by cases hn),
        fun s k n hn => (by cases hn), ⟨fun s k hk => (by cases hk), fun n s hm => ?_⟩⟩
      · dsimp only
        rw [hevs]
        simp
      · dsimp only at hn
        rw [hevs] at hn
        rcases hn with hn | hn <;> cases hn
      · dsimp only at hm; rw [hsrv.2] at hm; cases hm
  | @event es x y D cur M e hrun hl hs hchk hwell ih =>
    have hcl := ClMarkRun.run hrun
    have hi := ClRun.inv hg hcl
    have hcl' : ClRun g c (es ++ [e]) y := .step e hcl hl hs
    obtain ⟨ks, hsr⟩ := ClRun.srun hg hcl'
    have hlegal := (loose_legal hg (hsr.inv hg).run)
    have hout := step_evs hg hi hl hs
    have hev : evs y.sys.srv.out = evs x.sys.srv.out ++ evs (y.sys.srv.out.drop x.sys.srv.out.length) := by
      conv_lhs => rw [hout]
      exact List.filterMap_append
    have hchecks := step_checks hl hs hchk
    have hmsg := ih.msg.step hg hi hl hs (fun s body n he hw B hB hall => hwell s body n he hw (hall body hB))
      (fun s n _ h => h (fun b hb => hb))
    have hdone : ∀ n, Done (evs y.sys.srv.out) n → M n := by
      intro n hn
      by_cases hold : Done (evs x.sys.srv.out) n
      · exact ih.done n hold
      rw [hev] at hn
      unfold Done at hn hold
      simp only [List.mem_append] at hn
      rcases hn with (h1 | h1) | (h1 | h1)
      · exact absurd (Or.inl h1) hold
      · have h2 : .release n .success ∈ y.sys.srv.out := by
          rw [hout]
          exact List.mem_append_right _ ((evs_at _ n).1 h1)
        rcases ih.msg.completed hg hi hl hs h2 with h3 | ⟨s, _, h3⟩
        · have h4 : Ev.good n ∈ evs x.sys.srv.out := List.mem_filterMap.2 ⟨_, h3, rfl⟩
          exact absurd (Or.inl h4) hold
        · exact h3
      · exact absurd (Or.inr h1) hold
      · exact (hchecks _ ((evs_at _ n).2 h1)).1 n rfl
    have hready : ∀ n, .hand n ∈ evs y.sys.srv.out → n ∈ g.nodes ∧ ∀ u ∈ g.up n, M u := by
      intro n hn
      obtain ⟨pre, post, e1⟩ := List.append_of_mem hn
      have hr : Ready g pre n := hlegal pre _ post e1
      exact ⟨hr.1, fun u hu => hdone u ((hr.2.1 u hu).imp (fun h => e1 ▸ List.mem_append_left _ h)
        (fun h => e1 ▸ List.mem_append_left _ h))⟩
    have hnew : ∀ s n, .send s n ∈ y.sys.srv.out.drop x.sys.srv.out.length →
        ¬ M n ∧ ∀ l, W n l → (P n).run D l = oneByOne P order D₀ l := by
      intro s n hn
      have hm := (hchecks _ hn).2 s n rfl
      have h1 : .hand n ∈ evs y.sys.srv.out := by
        rw [hev]
        exact List.mem_append_right _ (List.mem_filterMap.2 ⟨_, hn, rfl⟩)
      exact ⟨hm, ih.ground.start hg hd ho hR (hready n h1).1 (hready n h1).2 hm⟩
    have hold : ∀ n s, holder y.sys.srv.out n = some s → holder x.sys.srv.out n = some s ∨
        .send s n ∈ y.sys.srv.out.drop x.sys.srv.out.length := by
      intro n s hn
      rw [hout] at hn
      exact holder_new _ _ hn
    have hopen : ∀ s, s ∉ y.sys.closed → s ∉ x.sys.closed := fun s h1 h2 => h1 (step_closed hl hs s h2)
    refine ⟨(ih.ground.hand hready).congr (fun n => ?_), hdone, ?_, ?_, hmsg⟩
    · rw [hev]
      simp only [List.mem_append]
      tauto
    · intro s k' n hk' hc hn hu
      rcases hold n s hn with hn' | hn'
      · rcases hx : x.conn s with _ | k
        · obtain ⟨t, w, rfl⟩ := connect_of_none hs hx hk'
          cases hs
          simp only [upd, if_true] at hk'
          cases hk'
          cases hu
        · obtain ⟨k1, e1, e2⟩ := eff_of_step hg hi hl hs hx
          rw [hk'] at e1
          cases e1
          rcases unread_eff hl e2 hu with h1 | ⟨l, rfl, os, h1, h2⟩
          · exact ih.sent s k n hx (hopen s hc) hn' h1
          · refine hnew s n ?_
            rw [h1, List.drop_left]
            exact h2 n rfl
      · exact hnew s n hn'
    · intro s k' n hk' hc hp
      have hw : workOf y s = some n := workOf_iff.2 ⟨k', hk', hp⟩
      rcases hwx : workOf x s with _ | m
      · obtain ⟨k, body, hk, hh, hph, rfl⟩ := starts_has hg hi hl hs hwx hw
        have e1 : begun P x y cur s = P n := by
          unfold begun
          rw [hw, hwx]
          exact if_pos rfl
        rw [e1]
        have hu : .sendBlock n ∈ unread k := by
          rcases hh with h1 | h1 | ⟨e, h1⟩
          · exact h1
          · rw [hph] at h1; cases h1
          · rw [hph] at h1; cases h1
        have ht := (hi.conn s k hk).talk (hopen s hc)
        unfold Talk at ht
        rw [hph] at ht
        have hn : holder x.sys.srv.out n = some s := by
          rcases ht with ⟨_, _, _, _, h1⟩ | ⟨_, _, h1⟩ | ⟨_, _, m, h1, h2⟩ | ⟨_, _, _, h1⟩
          · rw [h1] at hu; cases hu
          · rw [h1] at hu; cases hu
          · rw [h1] at hu
            exact h2 n (List.mem_singleton.1 hu).symm
          · rw [h1] at hu; cases hu
        obtain ⟨ks', hsr'⟩ := ClRun.srun hg hcl
        have hnn : n ∈ g.nodes := (hsr'.inv hg).toSCore.mem hg (by rw [hn]; exact Option.some_ne_none _)
        obtain ⟨h1, h2⟩ := ih.sent s k n hk (hopen s hc) hn hu
        exact ⟨hd.uses n hnn, h2, fun hm => absurd hm h1⟩
      · obtain ⟨rfl, -⟩ := works_on hg hi hl hs hwx hw
        have e1 : begun P x y cur s = cur s := by
          unfold begun
          rw [hw, hwx]
          exact if_neg (by simp)
        rw [e1]
        obtain ⟨k, hk, hp⟩ := workOf_iff.1 hwx
        exact ih.work s k m hk (hopen s hc) hp
  | @work es x D D' cur M s n q hrun hmay hw hq ih =>
    have hcl := ClMarkRun.run hrun
    have hi := ClRun.inv hg hcl
    obtain ⟨k, hk, hp⟩ := hw
    have hc : s ∉ x.sys.closed := hmay
    have ht := (hi.conn s k hk).talk hc
    unfold Talk at ht
    rw [hp] at ht
    obtain ⟨t1, t2, t3, t4⟩ := ht
    obtain ⟨c1, c2, c3⟩ := ih.work s k n hk hc hp
    obtain ⟨s1, s2, s3⟩ := Prog.uses_step c1 hq
    have hnm : ¬ M n := fun hm => by rw [c3 hm] at hq; cases hq
    obtain ⟨ks, hsr⟩ := ClRun.srun hg hcl
    have hsi := hsr.inv hg
    have hhand : ∀ m, holder x.sys.srv.out m ≠ none → Ev.hand m ∈ evs x.sys.srv.out := by
      intro m hm
      have hh := (hsi.held m).2 hm
      unfold Held at hh
      exact List.count_pos_iff.1 (by omega)
    have hsome : ∀ {m : N} {s : S}, holder x.sys.srv.out m = some s → holder x.sys.srv.out m ≠ none := fun h => by
      rw [h]; exact Option.some_ne_none _
    have hn := hhand n (hsome t4)
    have hsame : ∀ l, ¬ W n l → D' l = D l := fun l hw => by
      by_contra h
      exact hw (s2 l h)
    refine ⟨ih.ground.store hd (Or.inl hn) hnm hsame, ih.done, fun s' k' m hk' hc' hm hu => ?_,
      fun s' k' m hk' hc' hp' => ?_, ih.msg⟩
    · have hne : m ≠ n := by
        rintro rfl
        rw [t4] at hm
        cases hm
        rw [hk] at hk'
        cases hk'
        rw [t3] at hu
        cases hu
      obtain ⟨h1, h2⟩ := ih.sent s' k' m hk' hc' hm hu
      have hmH := hhand m (hsome hm)
      exact ⟨h1, ih.ground.others hd (Or.inl hn) hnm hsame (Or.inl hmH) h1 hne
        (hd.uses m (ih.ground.node m (Or.inl hmH))) h2⟩
    · by_cases e : s' = s
      · subst e
        rw [hk] at hk'
        cases hk'
        rw [hp] at hp'
        cases hp'
        have e1 : upd cur s' q s' = q := if_pos rfl
        rw [e1, s3]
        exact ⟨s1, c2, fun hm => absurd hm hnm⟩
      · have e1 : upd cur s q s' = cur s' := if_neg e
        rw [e1]
        have ht' := (hi.conn s' k' hk').talk hc'
        unfold Talk at ht'
        rw [hp'] at ht'
        have hm := ht'.2.2.2
        have hne : m ≠ n := by
          rintro rfl
          rw [t4] at hm
          cases hm
          exact e rfl
        obtain ⟨w1, w2, w3⟩ := ih.work s' k' m hk' hc' hp'
        have hmH := hhand m (hsome hm)
        refine ⟨w1, ?_, w3⟩
        by_cases hmm : M m
        · rw [w3 hmm] at w2 ⊢
          intro l hl
          have : D l = oneByOne P order D₀ l := w2 l hl
          rw [← this]
          exact hsame l (fun h' => hne (hd.apart m (ih.ground.node m (Or.inl hmH)) n
            (ih.ground.node n (Or.inl hn)) l hl h'))
        · exact ih.ground.others hd (Or.inl hn) hnm hsame (Or.inl hmH) hmm hne w1 w2
  | @mark es x D cur M s n hrun hmay hw hq ih =>
    have hcl := ClMarkRun.run hrun
    have hi := ClRun.inv hg hcl
    obtain ⟨k, hk, hp⟩ := hw
    have hc : s ∉ x.sys.closed := hmay
    have ht := (hi.conn s k hk).talk hc
    unfold Talk at ht
    rw [hp] at ht
    obtain ⟨t1, t2, t3, t4⟩ := ht
    obtain ⟨c1, c2, c3⟩ := ih.work s k n hk hc hp
    rw [hq] at c2
    obtain ⟨ks, hsr⟩ := ClRun.srun hg hcl
    have hn : Ev.hand n ∈ evs x.sys.srv.out := by
      have hh := ((hsr.inv hg).held n).2 (by rw [t4]; exact Option.some_ne_none _)
      unfold Held at hh
      exact List.count_pos_iff.1 (by omega)
    refine ⟨ih.ground.mark (Or.inl hn) c2, fun m hm => Or.inr (ih.done m hm), fun s' k' m hk' hc' hm hu => ?_,
      fun s' k' m hk' hc' hp' => ?_, ih.msg.mono (fun _ m B h hall => Or.inr (h hall)) (fun _ m h => Or.inr h)⟩
    · have hne : m ≠ n := by
        rintro rfl
        rw [t4] at hm
        cases hm
        rw [hk] at hk'
        cases hk'
        rw [t3] at hu
        cases hu
      obtain ⟨h1, h2⟩ := ih.sent s' k' m hk' hc' hm hu
      exact ⟨fun h => h.elim hne h1, h2⟩
    · obtain ⟨w1, w2, w3⟩ := ih.work s' k' m hk' hc' hp'
      refine ⟨w1, w2, fun h => ?_⟩
      rcases h with rfl | h
      · have ht' := (hi.conn s' k' hk').talk hc'
        unfold Talk at ht'
        rw [hp'] at ht'
        have hm := ht'.2.2.2
        rw [t4] at hm
        cases hm
        exact hq
      · exact w3 h

end Verif
