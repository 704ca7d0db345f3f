import Verif.Proofs.ServerFair
import Verif.Spec.Again

/-! # Executions in which clients ask again -/

set_option linter.unusedSectionVars false

namespace Verif

open Spec

variable {N T K S : Type} [DecidableEq N] [DecidableEq T] [DecidableEq K] [DecidableEq S]
  {g : DGraph N T K} {cfg : SConf T} {σ σ' : Server N T K S}

/-- Events of other tasks do not make blocks of a root task ready. -/
theorem ready_other {tr : List (Ev N)} {t : T} (hr : RootTask g t) {e : Ev N} (he : g.task e.node ≠ t) {n : N}
    (hn : g.task n = t) (h : Ready g (tr ++ [e]) n) : Ready g tr n := by
  obtain ⟨h1, h2, h3, h4, h5⟩ := h
  have hne : ∀ m, g.task m = t → e ≠ .good m ∧ e ≠ .skip m ∧ e ≠ .bad m ∧ e ≠ .hand m := by
    intro m hm
    refine ⟨?_, ?_, ?_, ?_⟩ <;> rintro rfl <;> exact he hm
  have hd : ∀ m, g.task m = t → (Done (tr ++ [e]) m ↔ Done tr m) := by
    intro m hm
    have := hne m hm
    simp only [Done, List.mem_append, List.mem_singleton]
    constructor
    · rintro ((h | h) | (h | h))
      · exact Or.inl h
      · exact absurd h.symm this.1
      · exact Or.inr h
      · exact absurd h.symm this.2.1
    · rintro (h | h)
      · exact Or.inl (Or.inl h)
      · exact Or.inr (Or.inl h)
  have hc := hne n hn
  have c1 : (tr ++ [e]).count (.good n) = tr.count (.good n) := by simp [List.count_append, hc.1]
  have c2 : (tr ++ [e]).count (.bad n) = tr.count (.bad n) := by simp [List.count_append, hc.2.2.1]
  have c3 : (tr ++ [e]).count (.hand n) = tr.count (.hand n) := by simp [List.count_append, hc.2.2.2]
  refine ⟨h1, fun u hu => (hd u (hr n h1 hn u hu)).1 (h2 u hu), fun h => h3 ((hd n hn).2 h),
    fun h => h4 (dead_mono h), ?_⟩
  unfold Held at h5 ⊢
  rwa [c1, c2, c3] at h5

/-- If no block of a root task is ready and none is taken back, none becomes ready. -/
theorem no_ready {tr post : List (Ev N)} {t : T} (hr : RootTask g t) (hl : Legal g (tr ++ post))
    (h0 : ∀ n, g.task n = t → ¬ Ready g tr n)
    (hpost : ∀ n, g.task n = t → .good n ∉ post ∧ .bad n ∉ post) :
    ∀ n, g.task n = t → ¬ Ready g (tr ++ post) n := by
  induction post using List.reverseRecOn with
  | nil => simpa using h0
  | append_singleton post e ih =>
    rw [← List.append_assoc] at hl ⊢
    have ih := ih (legal_prefix hl rfl) (fun n hn =>
      ⟨fun hc => (hpost n hn).1 (by simp [hc]), fun hc => (hpost n hn).2 (by simp [hc])⟩)
    have ha := hl (tr ++ post) e [] rfl
    have he : g.task e.node ≠ t := by
      intro hc
      cases e with
      | skip m => exact ih m hc ha
      | hand m => exact ih m hc ha
      | good m => exact (hpost m hc).1 (by simp)
      | bad m => exact (hpost m hc).2 (by simp)
    exact fun n hn h => ih n hn (ready_other hr he hn h)

/-- A request for a task: a block of the task is handed out, or none is ready then. -/
theorem ask_iteration (hg : g.OK) (h : SInv g σ) {k : Server.Tick N T S} (hk : GoodTick g cfg k)
    (he : σ.iteration g cfg k = .ok σ') {t : T} {s : S} (hr : k.recv = .msg (.acquire t) s) :
    ∃ es1 es2, evs σ'.out = evs σ.out ++ es1 ++ es2 ∧
      ((∃ n, g.task n = t ∧ .hand n ∈ es1) ∨ ∀ n, g.task n = t → ¬ Ready g (evs σ.out ++ es1) n) := by
  obtain ⟨σ1, σ2, h1, h2, h3⟩ := iteration_split he
  obtain ⟨σ1', g1, g2⟩ := handleMessages_ok hg h k.recv hk.1 k.chk hk.2.1 k.now
  rw [h1] at g1
  cases g1
  obtain ⟨σ2', os, L, c1, _, _, c4, c5, _⟩ := checkLost_ok hg g2 hk.2.2 k.closed k.clock
  rw [h2] at c1
  cases c1
  have hfr := late_frame (g := g) σ2 k.late
  rw [← h3] at hfr
  have hev : evs σ'.out = evs σ1.out ++ evs os := by rw [hfr.evs, c5, evs_append]
  rw [hr] at h1
  have hgm := hk.1 _ s hr
  simp only [Server.handleMessages, Server.handle] at h1
  split at h1
  · cases h1
  · next σ3 h4 =>
    cases h1
    have hf := checkAll_frame (g := g) σ3
    rw [hf.evs] at hev
    obtain ⟨σ4, skips, r, a1, a2, a3, a4⟩ := handleAcquire_spec (cfg := cfg) hg h k.chk k.now s hgm
    rw [a1] at h4
    cases h4
    rcases r with _ | n
    · refine ⟨skips.map .skip, evs os, ?_, Or.inr ((skips_task hg h.run a3).2.1 rfl)⟩
      rw [hev]
      congr 1
      simp only at a4
      obtain ⟨_, a4⟩ := a4
      split at a4
      · rw [a4.2, (recruit_frame _).evs]
        simp only [evs_append, evs_skips]
        simp [evs, toEv]
      · rw [a4.2.1, evs_append, evs_skips]
    · refine ⟨skips.map .skip ++ [.hand n], evs os, ?_, Or.inl ⟨n, a4.2.2.2.2.1, by simp⟩⟩
      rw [hev, a4.1, evs_append, evs_append, evs_skips]
      simp [evs, toEv]

/-- A request is delayed only after it was made. -/
theorem pending_iteration (hg : g.Loose) (h : SInv g σ) {k : Server.Tick N T S} (hk : GoodTick g cfg k)
    (he : σ.iteration g cfg k = .ok σ') {t : T} (hp : σ.pending t = [])
    (hr : ∀ s, k.recv ≠ .msg (.acquire t) s) : σ'.pending t = [] := by
  obtain ⟨σ1, σ2, h1, h2, h3⟩ := iteration_split he
  obtain ⟨σ1', g1, g2⟩ := handleMessages_ok hg h k.recv hk.1 k.chk hk.2.1 k.now
  rw [h1] at g1
  cases g1
  obtain ⟨σ2', os, L, c1, _, _, c4, c5, _⟩ := checkLost_ok hg g2 hk.2.2 k.closed k.clock
  rw [h2] at c1
  cases c1
  have hfr := late_frame (g := g) σ2 k.late
  rw [← h3] at hfr
  rw [hfr.pending, c4]
  clear hfr h3 h2 he c5 c4
  have hacq : ∀ (σ0 : Server N T K S) x s, SInv g σ0 → x ∈ cfg.served → x ≠ t → σ0.pending t = [] →
      σ0.handle g cfg k.chk k.pick k.now (.acquire x) s = .ok σ1 → σ1.pending t = [] := by
    intro σ0 x s hi hx hxt h0 hh
    simp only [Server.handle] at hh
    split at hh
    · cases hh
    · next σ3 h4 =>
      cases hh
      rw [(checkAll_frame (g := g) σ3).pending]
      obtain ⟨σ4, skips, r, a1, a2, a3, a4⟩ := handleAcquire_spec (cfg := cfg) hg hi k.chk k.now s hx
      rw [a1] at h4
      cases h4
      rcases r with _ | n
      · obtain ⟨_, a4⟩ := a4
        split at a4
        · rw [a4.1, h0]
        · rw [a4.1]
          simp [upd, hxt.symm, h0]
      · rw [a4.2.1, h0]
  cases hrv : k.recv with
  | closed => rw [hrv] at h1; cases h1; exact hp
  | nothing =>
    rw [hrv] at h1
    simp only [Server.handleMessages] at h1
    split at h1
    · cases h1; exact hp
    · next x hf =>
      have hxt : x ≠ t := by
        rintro rfl
        have := List.find?_some hf
        simp [hp] at this
      split at h1
      · cases h1; exact hp
      · next s rest hpt =>
        exact hacq _ x s (h.pending _) (List.mem_of_find?_eq_some hf) hxt (by simp [upd, hxt.symm, hp]) h1
  | msg m s =>
    rw [hrv] at h1
    have hgm := hk.1 m s hrv
    cases m with
    | acquire x => exact hacq σ x s h hgm (fun e => hr s (by rw [hrv, e])) hp h1
    | release n st =>
      simp only [Server.handleMessages, Server.handle] at h1
      split at h1
      · cases h1
      · next σ3 h4 =>
        cases h1
        obtain ⟨σ4, r1, _, r3, _⟩ := safeRelease_spec hg h hgm.1 (s := s) hgm.2 hk.2.1
        rw [r1] at h4
        cases h4
        rw [(checkAll_frame (g := g) _).pending, r3, hp]
    | blockFailed n w =>
      simp only [Server.handleMessages, Server.handle] at h1
      split at h1
      · cases h1
      · next σ3 h4 =>
        cases h1
        obtain ⟨σ4, r1, _, r3, _⟩ := safeRelease_spec hg h hgm (s := s) (Or.inr rfl) hk.2.1
        rw [r1] at h4
        cases h4
        rw [(checkAll_frame (g := g) _).pending]
        exact (congrFun r3 t).trans hp
    | clientException => exact absurd hgm id
    | other => exact absurd hgm id

section
variable {σs : Nat → Server N T K S} {kf : Nat → Server.Tick N T S}

theorem Spec.Forever.evs_add (hg : g.Loose) (h : Forever g cfg σs kf) (i d : Nat) :
    ∃ es, evs (σs (i + d)).out = evs (σs i).out ++ es ∧
      ∀ n, (.good n ∈ es ∨ .bad n ∈ es) → ∃ j, i ≤ j ∧ j < i + d ∧ TakenBack σs j n := by
  induction d with
  | zero => exact ⟨[], by simp, by simp⟩
  | succ d ih =>
    obtain ⟨es, e1, e2⟩ := ih
    obtain ⟨os, ho⟩ := h.out hg (i + d)
    refine ⟨es ++ evs os, by rw [← Nat.add_assoc, ho, evs_append, e1, List.append_assoc], fun n hn => ?_⟩
    have hcase : (.good n ∈ es ∨ .bad n ∈ es) ∨ ∃ st, .release n st ∈ os := by
      simp only [List.mem_append] at hn
      have hos : ∀ e, e ∈ evs os → e = .good n ∨ e = .bad n → ∃ st, .release n st ∈ os := by
        intro e he hen
        obtain ⟨o, ho, hoe⟩ := List.mem_filterMap.1 he
        cases o with
        | release m st =>
          refine ⟨st, ?_⟩
          cases st <;> simp [toEv] at hoe <;> subst hoe <;> simp at hen <;> subst hen <;> exact ho
        | _ => simp [toEv] at hoe <;> subst hoe <;> simp at hen
      rcases hn with (hn | hn) | (hn | hn)
      · exact Or.inl (Or.inl hn)
      · exact Or.inr (hos _ hn (Or.inl rfl))
      · exact Or.inl (Or.inr hn)
      · exact Or.inr (hos _ hn (Or.inr rfl))
    rcases hcase with hc | ⟨st, hc⟩
    · obtain ⟨j, j1, j2, j3⟩ := e2 n hc
      exact ⟨j, j1, by omega, j3⟩
    · exact ⟨i + d, by omega, by omega, os, st, ho, hc⟩

theorem Spec.Forever.asked_before (hg : g.Loose) (h : Forever g cfg σs kf) {t : T} :
    ∀ j, (σs j).pending t ≠ [] → ∃ i s, i < j ∧ (σs i).stop = false ∧ (kf i).recv = .msg (.acquire t) s := by
  intro j
  induction j with
  | zero =>
    intro hp
    rw [h.init] at hp
    exact absurd ((congrFun (recruit_frame _).pending t).trans rfl) hp
  | succ j ih =>
    intro hp
    by_cases hpj : (σs j).pending t = []
    · cases hs : (σs j).stop with
      | true => rw [h.stopped j hs] at hp; exact absurd hpj hp
      | false =>
        by_cases hr : ∃ s, (kf j).recv = .msg (.acquire t) s
        · obtain ⟨s, hr⟩ := hr
          exact ⟨j, s, by omega, hs, hr⟩
        · push Not at hr
          exact absurd (pending_iteration hg ((h.run j).choose_spec.inv hg) (h.good j) (h.step j hs) hpj hr) hp
    · obtain ⟨i, s, i1, i2⟩ := ih hpj
      exact ⟨i, s, by omega, i2⟩

/-- Once nothing happens any more, no block of a root task is ready. -/
theorem Spec.Forever.root_idle (hg : g.OK) (h : Forever g cfg σs kf) (hf : Fair g σs kf)
    (ha : AsksAgain g σs kf) (hns : ∀ i, (σs i).stop = false) {I : Nat}
    (hI : ∀ j, I ≤ j → evs (σs j).out = evs (σs I).out) (hheld : ∀ n, ¬ Held (evs (σs I).out) n) {t : T}
    (hroot : RootTask g t) (hrec : Recruited (σs I) t) :
    ∀ n, g.task n = t → ¬ Ready g (evs (σs I).out) n := by
  intro m hm hready
  have hrunI := (h.run I).choose_spec.inv hg
  have hnf : ∀ j, ¬ TaskFinished g (evs (σs j).out) t := by
    intro j hc
    obtain ⟨es, e, _⟩ := h.evs_add hg j I
    have h1 : TaskFinished g (evs (σs I).out) t := by
      rw [← hI (j + I) (by omega), e]
      exact finished_mono hc
    have := (C19_disjoint_partial hg hrunI.run m).1 hready
    have := h1 m hready.1 hm
    tauto
  -- a request after which no block of the task is taken back
  have key : ∀ j s, (kf j).recv = .msg (.acquire t) s → (∀ i n, j ≤ i → g.task n = t → ¬ TakenBack σs i n) →
      False := by
    intro j s hj hlast
    obtain ⟨es1, es2, e, hcase⟩ := ask_iteration hg ((h.run j).choose_spec.inv hg) (h.good j)
      (h.step j (hns j)) hj
    obtain ⟨es3, e3, b3⟩ := h.evs_add hg (j + 1) I
    obtain ⟨es0, e0, b0⟩ := h.evs_add hg j (1 + I)
    have hfin : evs (σs (j + 1 + I)).out = evs (σs I).out := hI _ (by omega)
    have hes : es0 = es1 ++ es2 ++ es3 := by
      rw [← Nat.add_assoc, e3, e] at e0
      simpa using e0.symm
    have hno : ∀ n, g.task n = t → .good n ∉ es1 ++ es2 ++ es3 ∧ .bad n ∉ es1 ++ es2 ++ es3 := by
      intro n hn
      rw [← hes]
      constructor
      · intro hc
        obtain ⟨i, i1, _, i2⟩ := b0 n (Or.inl hc)
        exact hlast i n i1 hn i2
      · intro hc
        obtain ⟨i, i1, _, i2⟩ := b0 n (Or.inr hc)
        exact hlast i n i1 hn i2
    have hE : evs (σs I).out = evs (σs j).out ++ es1 ++ (es2 ++ es3) := by
      rw [← hfin, e3, e]
      simp
    rcases hcase with ⟨n, hn, hh⟩ | hcase
    · refine hheld n ?_
      have hb := (((h.run j).choose_spec.inv hg).run.facts hg).bal n
      have h1 : 0 < es1.count (.hand n) := List.count_pos_iff.2 hh
      have h2 := hno n hn
      have h3 : (es1 ++ es2 ++ es3).count (.good n) = 0 := List.count_eq_zero.2 h2.1
      have h4 : (es1 ++ es2 ++ es3).count (.bad n) = 0 := List.count_eq_zero.2 h2.2
      unfold Held
      rw [hE]
      simp only [List.count_append] at h3 h4 ⊢
      omega
    · have hl := (loose_legal hg hrunI.run)
      rw [hE] at hl
      refine no_ready hroot hl hcase (fun n hn => ?_) m hm (hE ▸ hready)
      have := hno n hn
      simp only [List.mem_append, not_or] at this ⊢
      exact ⟨⟨this.1.1.2, this.1.2⟩, ⟨this.2.1.2, this.2.2⟩⟩
  have htb : ∀ i n, TakenBack σs i n → i < I := by
    intro i n ⟨os, st, ho, hst⟩
    by_contra hc
    have h1 := hI i (by omega)
    have h2 := hI (i + 1) (by omega)
    rw [← h1, ho] at h2
    have h3 := evs_eq_nil h2
    have hrun := (h.run (i + 1)).choose_spec
    rcases hrun.status hg n st (by rw [ho]; exact List.mem_append_right _ hst) with rfl | rfl
    · have : Ev.good n ∈ evs os := List.mem_filterMap.2 ⟨_, hst, rfl⟩
      rw [h3] at this
      cases this
    · have : Ev.bad n ∈ evs os := List.mem_filterMap.2 ⟨_, hst, rfl⟩
      rw [h3] at this
      cases this
  by_cases hex : ∃ i n, g.task n = t ∧ TakenBack σs i n
  · -- the last time a block of the task is taken back
    obtain ⟨i, n, hn, hi, hlast⟩ : ∃ i n, g.task n = t ∧ TakenBack σs i n ∧
        ∀ i' n', i < i' → g.task n' = t → ¬ TakenBack σs i' n' := by
      by_contra hcon
      push Not at hcon
      have hup : ∀ d, ∃ i n, d ≤ i ∧ g.task n = t ∧ TakenBack σs i n := by
        intro d
        induction d with
        | zero => obtain ⟨i, n, h1, h2⟩ := hex; exact ⟨i, n, by omega, h1, h2⟩
        | succ d ih =>
          obtain ⟨i, n, h0, h1, h2⟩ := ih
          obtain ⟨i', n', h3, h4, h5⟩ := hcon i n h1 h2
          exact ⟨i', n', by omega, h4, h5⟩
      obtain ⟨i, n, h0, _, h2⟩ := hup I
      have := htb i n h2
      omega
    obtain ⟨j, hj, hc⟩ := ha i n hi
    rw [hn] at hc
    rcases hc with hc | hc | ⟨s, hc⟩
    · rw [hns] at hc; cases hc
    · exact hnf j hc
    · exact key j s hc (fun i' n' h1 => hlast i' n' (by omega))
  · push Not at hex
    obtain ⟨j, _, hc⟩ := hf.asked I t hrec
    rcases hc with hc | hc | ⟨s, hc⟩ | hc
    · rw [hns] at hc; cases hc
    · exact hnf j hc
    · exact key j s hc (fun i' n' _ => hex i' n')
    · obtain ⟨i, s, _, _, hr⟩ := h.asked_before hg j hc
      exact key i s hr (fun i' n' _ => hex i' n')

/-- A fair execution in which clients ask again stops. -/
theorem Spec.Forever.stops_again (hg : g.OK) {trank' : T → Nat} (ho' : TaskOrder g trank')
    (hserved : cfg.served.Pairwise (fun a b => RootTask g a ∨ RootTask g b ∨ trank' a ≤ trank' b)) (hall : ∀ n ∈ g.nodes, g.task n ∈ cfg.served)
    (h : Forever g cfg σs kf) (hf : Fair g σs kf) (ha : AsksAgain g σs kf) (hx : ∀ i, OrphanExact g (evs (σs i).out)) :
    ∃ i, (σs i).stop = true := by
  classical
  by_contra hno
  -- tasks that wait for no other come first
  let trank : T → Nat := fun t => if RootTask g t then 0 else trank' t + 1
  have ho : TaskOrder g trank := by
    intro n hn u hu
    by_cases hrn : RootTask g (g.task n)
    · exact Or.inl (hrn n hn rfl u hu)
    · rcases ho' n hn u hu with h1 | h1
      · exact Or.inl h1
      · right
        simp only [trank, if_neg hrn]
        split <;> omega
  have hns : ∀ i, (σs i).stop = false := by
    intro i
    cases hs : (σs i).stop with
    | false => rfl
    | true => exact absurd ⟨i, hs⟩ hno
  obtain ⟨I, hI⟩ := h.quiet hg
  have hnob := h.nobody hg hf hns hI (hx I)
  obtain ⟨ksI, hrI⟩ := h.run I
  have hheld : ∀ n, ¬ Held (evs (σs I).out) n := fun n hc => ((hrI.inv hg).held n).1 hc (hnob I (le_refl _) n)
  have hsteady := fun j (hj : I ≤ j) => steady_iteration' hg ((h.run j).choose_spec.inv hg) (h.good j)
    (h.step j (hns j)) (hI j hj) (hI (j + 1) (by omega)) (hx I)
  by_cases hfin : ∀ n ∈ g.nodes, Done (evs (σs I).out) n ∨ Dead g (evs (σs I).out) n ∨ Orphan g (evs (σs I).out) n
  · -- everything is finished
    obtain ⟨j, hj, hc⟩ := hf.late I
    rcases hc with hc | hc
    · rw [hns] at hc; cases hc
    obtain ⟨ks, hr⟩ := h.run (j + 1)
    have hit := h.step j (hns j)
    obtain ⟨σ1, σ2, _, _, h3⟩ := iteration_split hit
    rw [if_pos hc] at h3
    have hstop := hns (j + 1)
    have hcs := checkAll_spec (g := g) σ2
    have hfr := checkAll_frame (g := g) σ2
    rw [← h3] at hcs hfr
    have : (σs (j + 1)).stop = true := by
      refine hcs.2.1.2 (Or.inr fun t _ => ?_)
      rw [← hfr.sched]
      refine (C22_loose_is_done_partial hg (hr.inv hg).run (hx _) t).2 ?_
      rw [hI (j + 1) (by omega)]
      exact fun n hn _ => hfin n hn
    rw [this] at hstop
    cases hstop
  · push Not at hfin
    obtain ⟨n0, hn0, u1, u2, u3⟩ := hfin
    have hexr : ∃ m, Ready g (evs (σs I).out) m := by
      by_cases hr : Ready g (evs (σs I).out) n0
      · exact ⟨n0, hr⟩
      · obtain ⟨a, _, ha⟩ := ready_ancestor hg hheld hn0 u1 u2 u3 hr
        exact ⟨a, ha⟩
    -- a ready block whose task is as far upstream as possible
    obtain ⟨m, hm, hmin⟩ : ∃ m, Ready g (evs (σs I).out) m ∧
        ∀ m', Ready g (evs (σs I).out) m' → trank (g.task m) ≤ trank (g.task m') := by
      classical
      have hex : ∃ r, ∃ m, Ready g (evs (σs I).out) m ∧ trank (g.task m) = r := ⟨_, hexr.choose,
        hexr.choose_spec, rfl⟩
      obtain ⟨m, h1, h2⟩ := Nat.find_spec hex
      exact ⟨m, h1, fun m' h' => by rw [h2]; exact Nat.find_min' hex ⟨m', h', rfl⟩⟩
    have hrec : Recruited (σs I) (g.task m) := by
      rcases hrI.staffed hg ho (hx I) (hnob I (le_refl _)) m hm with h1 | ⟨m', h1, _, h2⟩
      · exact (hrI.recruited hg _).1 h1
      · have := hmin m' h1
        omega
    have hroot : ¬ RootTask g (g.task m) :=
      fun hr => h.root_idle hg hf ha hns hI hheld hr hrec m rfl hm
    obtain ⟨j, hj, hc⟩ := hf.asked I _ hrec
    rcases hc with hc | hc | ⟨s, hc⟩ | hc
    · rw [hns] at hc; cases hc
    · rw [hI j hj] at hc
      have hd := (C19_disjoint_partial hg (hrI.inv hg).run m).1 hm
      have := hc m hm.1 rfl
      tauto
    · exact (hsteady j hj).2.2.2.1 _ s hc m rfl hm
    · -- the request waits behind requests for finished tasks only
      have hwait : ∀ d, (σs (j + d)).pending (g.task m) ≠ [] := by
        intro d
        induction d with
        | zero => exact hc
        | succ d ih =>
          have := (hsteady (j + d) (by omega)).2.1 m hm
          intro e
          rw [← Nat.add_assoc] at e
          rw [e] at this
          exact ih (List.eq_nil_of_length_eq_zero (by simpa using this))
      obtain ⟨pre, post, hpp⟩ := List.append_of_mem (hall m hm.1)
      classical
      let fin : List T := pre.filter (fun x => TaskFinished g (evs (σs I).out) x)
      let M : Nat → Nat := fun i => (fin.map (fun x => ((σs i).pending x).length)).sum
      have hM : ∀ i, I ≤ i → M (i + 1) ≤ M i := by
        intro i hi
        refine List.sum_le_sum (fun x hx => ?_)
        exact (hsteady i hi).1 x (by simpa using (List.mem_filter.1 hx).2)
      have hMm : ∀ i d, I ≤ i → M (i + d) ≤ M i := by
        intro i d hi
        induction d with
        | zero => exact le_refl _
        | succ d ih => exact le_trans (hM (i + d) (by omega)) ih
      have hidle : ∀ i, j ≤ i → (kf i).recv = .nothing → M (i + 1) < M i := by
        intro i hi hk
        have hfw : ∃ x, firstWaiting cfg (σs i) = some x ∧ (x ∈ pre ∨ x = g.task m) := by
          obtain ⟨d, rfl⟩ := Nat.exists_eq_add_of_le hi
          have hw := hwait d
          unfold firstWaiting
          rw [hpp, List.find?_append]
          cases hfp : pre.find? (fun t => decide (((σs (j + d)).pending t).length ≠ 0)) with
          | some x => exact ⟨x, rfl, Or.inl (List.mem_of_find?_eq_some hfp)⟩
          | none => exact ⟨g.task m, by simp [hw], Or.inr rfl⟩
        obtain ⟨x, hx1, hx2⟩ := hfw
        have h3 := (hsteady i (by omega)).2.2.1 hk x hx1
        have hxp : x ∈ pre := by
          rcases hx2 with h | h
          · exact h
          · exact absurd hm (h3.1 m h.symm)
        have hrank : trank x ≤ trank (g.task m) := by
          rw [hpp, List.pairwise_append] at hserved
          have := hserved.2.2 x hxp _ List.mem_cons_self
          simp only [trank, if_neg hroot]
          split
          · omega
          · next hxr =>
            rcases this with h1 | h1 | h1
            · exact absurd h1 hxr
            · exact absurd h1 hroot
            · omega
        have hxf : TaskFinished g (evs (σs I).out) x := by
          intro n hn hnt
          by_contra hcon
          push Not at hcon
          have hnr := h3.1 n hnt
          obtain ⟨a, ha, har⟩ := ready_ancestor hg hheld hn hcon.1 hcon.2.1 hcon.2.2 hnr
          rcases (TaskOrder.anc hg ho hn ha).2 with h4 | h4
          · exact h3.1 a (h4.trans hnt) har
          · have := hmin a har
            rw [hnt] at h4
            omega
        have hxm : x ∈ fin := List.mem_filter.2 ⟨hxp, by simpa using hxf⟩
        refine List.sum_lt_sum _ _ (fun y hy => ?_) ⟨x, hxm, h3.2 hxf⟩
        exact (hsteady i (by omega)).1 y (by simpa using (List.mem_filter.1 hy).2)
      have key : ∀ b i, j ≤ i → M i ≤ b → False := by
        intro b
        induction b with
        | zero =>
          intro i hi hb
          obtain ⟨i', hi', hc'⟩ := hf.idle i
          rcases hc' with hc' | hc'
          · rw [hns] at hc'; cases hc'
          · have h1 := hidle i' (by omega) hc'
            obtain ⟨d, rfl⟩ := Nat.exists_eq_add_of_le hi'
            have h2 := hMm i d (by omega)
            omega
        | succ b ih =>
          intro i hi hb
          obtain ⟨i', hi', hc'⟩ := hf.idle i
          rcases hc' with hc' | hc'
          · rw [hns] at hc'; cases hc'
          · have h1 := hidle i' (by omega) hc'
            obtain ⟨d, rfl⟩ := Nat.exists_eq_add_of_le hi'
            have h2 := hMm i d (by omega)
            exact ih (i + d + 1) (by omega) (by omega)
      exact key _ j (le_refl _) (le_refl _)

end

end Verif
