import Verif.Proofs.ServerProgress
import Verif.Proofs.SystemKeep
import Verif.Props.ServerHold
import Verif.Spec.Fair

/-! # Iterations in which nothing happens to any block -/

set_option linter.unusedSectionVars false

namespace Verif

open Spec

variable {N T K S : Type} [DecidableEq N] [DecidableEq T] [DecidableEq K] [DecidableEq S]
  {g : DGraph N T K} {cfg : SConf T} {σ σ' : Server N T K S}

theorem evs_eq_nil {out os : List (Out N T S)} (h : evs (out ++ os) = evs out) : evs os = [] := by
  rw [evs_append] at h
  exact List.append_right_eq_self.1 h

/-- If no block was handed out or taken back, everybody still has what they had. -/
theorem holder_steady {ks' : List (Server.Tick N T S)} (hg : g.Loose) (h' : SRun g cfg ks' σ')
    {os : List (Out N T S)} (ho : σ'.out = σ.out ++ os) (hev : evs σ'.out = evs σ.out) (n : N) :
    holder σ'.out n = holder σ.out n := by
  rw [ho] at hev
  have h0 := evs_eq_nil hev
  rw [ho, holder_append]
  have key : ∀ (l : List (Out N T S)) (x : Option S), (∀ o ∈ l, o ∈ σ'.out) → evs l = [] →
      l.foldl (holderStep n) x = x := by
    intro l
    induction l with
    | nil => intro x _ _; rfl
    | cons o l ih =>
      intro x hm he
      have h1 : toEv o = none ∧ evs l = [] := by
        unfold evs at he ⊢
        cases hto : toEv o with
        | none => rw [List.filterMap_cons_none hto] at he; exact ⟨rfl, he⟩
        | some e => rw [List.filterMap_cons_some hto] at he; cases he
      have h2 : holderStep n x o = x := by
        cases o with
        | send s m => cases h1.1
        | release m st =>
          rcases h'.status hg m st (hm _ List.mem_cons_self) with rfl | rfl <;> cases h1.1
        | _ => rfl
      rw [List.foldl_cons, h2]
      exact ih x (fun o ho => hm o (List.mem_cons_of_mem _ ho)) h1.2
  exact key os _ (fun o hm => by rw [ho]; exact List.mem_append_right _ hm) h0

/-- A request that hands out nothing. -/
theorem steady_acquire (hg : g.OK) (h : SInv g σ) {chk : Nat → N → Check} {now : Int} {t : T} {s : S}
    (ht : t ∈ cfg.served) (he : σ.handleAcquire g cfg chk now t s = .ok σ') (hev : evs σ'.out = evs σ.out) :
    (∀ n, g.task n = t → ¬ Ready g (evs σ.out) n) ∧
    (σ'.pending = σ.pending ∨ σ'.pending = upd σ.pending t (σ.pending t ++ [s])) ∧
    (OrphanExact g (evs σ.out) → TaskFinished g (evs σ.out) t → σ'.pending = σ.pending) := by
  obtain ⟨σ1, skips, r, a1, a2, a3, a4⟩ := handleAcquire_spec (cfg := cfg) hg h chk now s ht
  rw [a1] at he
  cases he
  rcases r with _ | n
  · have hout : evs σ'.out = evs σ.out ++ skips.map .skip := by
      simp only at a4
      obtain ⟨_, a4⟩ := a4
      split at a4
      · rw [a4.2, (recruit_frame _).evs]
        simp only [evs_append, evs_skips]
        simp [evs, toEv]
      · rw [a4.2.1, evs_append, evs_skips]
    rw [hev] at hout
    have hnil : skips = [] := by
      have := List.self_eq_append_right.1 hout
      simpa using this
    subst hnil
    have hrun : Run g (evs σ.out) σ'.sched := by
      have := Run.acquire chk t h.run a3
      simpa [acquireEvents] using this
    refine ⟨?_, ?_, ?_⟩
    · intro n hn
      have := (skips_task hg h.run a3).2.1 rfl n hn
      simpa using this
    · obtain ⟨_, a4⟩ := a4
      split at a4
      · exact Or.inl a4.1
      · exact Or.inr a4.1
    · intro hx hf
      obtain ⟨_, a4⟩ := a4
      have hp : (σ'.sched.states t).pending = 0 := by
        rw [C22_pending_partial hg hrun hx t, cnt_eq_zero]
        intro n hn hnt hc
        exact hc.1 (hf n hn hnt)
      rw [if_pos hp] at a4
      exact a4.1
  · exfalso
    simp only at a4
    rw [a4.1, evs_append, evs_append, evs_skips] at hev
    have := congrArg List.length hev
    simp [evs, toEv] at this

/-- What an iteration does to the delayed requests if nothing happens to any block. -/
theorem steady_iteration (hg : g.OK) (h : SInv g σ) {k : Server.Tick N T S} (hk : GoodTick g cfg k)
    (he : σ.iteration g cfg k = .ok σ') (hev : evs σ'.out = evs σ.out) (hx : OrphanExact g (evs σ.out)) :
    (∀ x, TaskFinished g (evs σ.out) x → (σ'.pending x).length ≤ (σ.pending x).length) ∧
    (∀ n, Ready g (evs σ.out) n → (σ.pending (g.task n)).length ≤ (σ'.pending (g.task n)).length) ∧
    (k.recv = .nothing → ∀ x, firstWaiting cfg σ = some x → (∀ n, g.task n = x → ¬ Ready g (evs σ.out) n) ∧
      (TaskFinished g (evs σ.out) x → (σ'.pending x).length < (σ.pending x).length)) ∧
    (∀ t s, k.recv = .msg (.acquire t) s → ∀ n, g.task n = t → ¬ Ready g (evs σ.out) n) ∧
    (∀ n s, GivesBack k n s → holder σ.out n ≠ some s) := by
  obtain ⟨σ1, σ2, h1, h2, h3⟩ := iteration_split he
  obtain ⟨σ1', g1, g2⟩ := handleMessages_ok hg h k.recv hk.1 k.chk hk.2.1 k.now
  rw [h1] at g1
  cases g1
  obtain ⟨σ2', os, L, c1, _, _, c4, c5, _⟩ := checkLost_ok hg g2 hk.2.2 k.closed k.clock
  rw [h2] at c1
  cases c1
  have hfr := late_frame (g := g) σ2 k.late
  rw [← h3] at hfr
  have hp : σ'.pending = σ1.pending := by rw [hfr.pending, c4]
  obtain ⟨o1, e1⟩ := chain_out (handleMessages_chain hg h hk.1 hk.2.1 h1)
  have hev1 : evs σ1.out = evs σ.out := by
    have : evs σ'.out = evs σ.out ++ (evs o1 ++ evs os) := by
      rw [hfr.evs, c5, e1, evs_append, evs_append, List.append_assoc]
    rw [hev] at this
    have := List.self_eq_append_right.1 this
    rw [List.append_eq_nil_iff] at this
    rw [e1, evs_append, this.1, List.append_nil]
  rw [hp]
  clear hp hfr h3 h2 he c5 c4
  -- what a handled message does
  have hacq : ∀ (σ0 : Server N T K S) t s, SInv g σ0 → t ∈ cfg.served → evs σ0.out = evs σ.out →
      σ0.handle g cfg k.chk k.pick k.now (.acquire t) s = .ok σ1 →
      (∀ n, g.task n = t → ¬ Ready g (evs σ.out) n) ∧
      (σ1.pending = σ0.pending ∨ σ1.pending = upd σ0.pending t (σ0.pending t ++ [s])) ∧
      (TaskFinished g (evs σ.out) t → σ1.pending = σ0.pending) := by
    intro σ0 t s hi ht hev0 hh
    simp only [Server.handle] at hh
    split at hh
    · cases hh
    · next σ3 h4 =>
      cases hh
      have hf := checkAll_frame (g := g) σ3
      have := steady_acquire hg hi ht h4 (by rw [← hf.evs, hev1, hev0])
      rw [hev0] at this
      rw [hf.pending]
      exact ⟨this.1, this.2.1, this.2.2 hx⟩
  have hrel : ∀ n st s, n ∈ g.nodes → (st = .success ∨ st = .failed) →
      (∃ σ3 fr, σ.safeRelease g k.pick n st s = .ok σ3 ∧ Frame σ3 fr ∧ σ1 = fr) →
      holder σ.out n ≠ some s ∧ σ1.pending = σ.pending := by
    rintro n st s hn hst ⟨σ3, fr, q1, q2, rfl⟩
    obtain ⟨σ4, r1, _, r3, r4⟩ := safeRelease_spec hg h hn (s := s) hst hk.2.1
    rw [r1] at q1
    cases q1
    refine ⟨?_, by rw [q2.pending, r3]⟩
    intro hc
    rw [if_pos hc] at r4
    obtain ⟨os', r4, _⟩ := r4
    rw [q2.evs, r4, evs_append] at hev1
    have := congrArg List.length hev1
    rcases hst with rfl | rfl <;> simp [evs, toEv] at this
  unfold GivesBack
  cases hr : k.recv with
  | msg m s =>
    rw [hr] at h1
    have hgm := hk.1 m s hr
    cases m with
    | acquire t =>
      obtain ⟨a1, a2, a3⟩ := hacq σ t s h hgm rfl h1
      refine ⟨?_, ?_, fun hc => by (cases hc), ?_, by rintro n s (⟨_, hc⟩ | ⟨_, hc⟩) <;> cases hc⟩
      · intro x hfx
        rcases a2 with a2 | a2
        · rw [a2]
        · by_cases hxt : x = t
          · subst hxt; rw [a3 hfx]
          · rw [a2]; simp [upd, hxt]
      · intro n _
        rcases a2 with a2 | a2
        · rw [a2]
        · rw [a2]; unfold upd; split
          · next hc => rw [hc]; simp
          · exact le_refl _
      · intro t' s' hc; cases hc; exact a1
    | release n st =>
      have := hrel n st s hgm.1 hgm.2 (by
        simp only [Server.handleMessages, Server.handle] at h1
        split at h1
        · cases h1
        · next σ3 h4 => cases h1; exact ⟨σ3, _, h4, checkAll_frame σ3, rfl⟩)
      rw [this.2]
      refine ⟨fun _ _ => le_refl _, fun _ _ => le_refl _, fun hc => by (cases hc), fun t s hc => by (cases hc), ?_⟩
      rintro n' s' (⟨_, hc⟩ | ⟨_, hc⟩)
      · cases hc; exact this.1
      · cases hc
    | blockFailed n w =>
      have := hrel n .failed s hgm (Or.inr rfl) (by
        simp only [Server.handleMessages, Server.handle] at h1
        split at h1
        · cases h1
        · next σ3 h4 =>
          split at h4
          · cases h4
          · next σ5 h5 =>
            cases h4
            cases h1
            refine ⟨σ5, _, h5, Frame.trans (σ₂ := σ5.emit [.blockFailure n w]) ⟨rfl, rfl, rfl, _, rfl, ?_⟩
              (checkAll_frame _), rfl⟩
            intro o ho
            rw [List.mem_singleton.1 ho]
            trivial)
      rw [this.2]
      exact ⟨fun _ _ => le_refl _, fun _ _ => le_refl _, fun hc => by (cases hc), fun t s hc => by (cases hc),
        by
          rintro n' s' (⟨_, hc⟩ | ⟨_, hc⟩)
          · cases hc
          · cases hc; exact this.1⟩
    | clientException => exact absurd hgm id
    | other => exact absurd hgm id
  | closed =>
    rw [hr] at h1
    cases h1
    exact ⟨fun _ _ => le_refl _, fun _ _ => le_refl _, fun hc => by (cases hc), fun t s hc => by (cases hc),
      by rintro n s (⟨_, hc⟩ | ⟨_, hc⟩) <;> cases hc⟩
  | nothing =>
    rw [hr] at h1
    simp only [Server.handleMessages] at h1
    split at h1
    · next hf =>
      cases h1
      refine ⟨fun _ _ => le_refl _, fun _ _ => le_refl _, ?_, fun t s hc => by (cases hc),
        by rintro n s (⟨_, hc⟩ | ⟨_, hc⟩) <;> cases hc⟩
      intro _ x hfx
      unfold firstWaiting at hfx
      rw [hf] at hfx
      cases hfx
    · next t hf =>
      split at h1
      · next hnil =>
        have := List.find?_some hf
        simp [hnil] at this
      · next s rest hpt =>
        obtain ⟨a1, a2, a3⟩ := hacq { σ with pending := upd σ.pending t rest } t s (h.pending _)
          (List.mem_of_find?_eq_some hf) rfl h1
        have hle : ∀ x, TaskFinished g (evs σ.out) x → (σ1.pending x).length ≤ (σ.pending x).length := by
          intro x hfx
          by_cases hxt : x = t
          · subst hxt; rw [a3 hfx]; simp [upd, hpt]
          · rcases a2 with a2 | a2 <;> rw [a2] <;> simp [upd, hxt]
        refine ⟨hle, ?_, ?_, fun t s hc => by (cases hc), by rintro n s (⟨_, hc⟩ | ⟨_, hc⟩) <;> cases hc⟩
        · intro n hn
          have hnt : g.task n ≠ t := fun hc => a1 n hc hn
          rcases a2 with a2 | a2 <;> rw [a2] <;> simp [upd, hnt]
        · intro _ x hfx
          unfold firstWaiting at hfx
          rw [hf] at hfx
          cases hfx
          refine ⟨a1, fun hfin => ?_⟩
          rw [a3 hfin]
          simp [upd, hpt]

/-- The same for a given history. -/
theorem steady_iteration' (hg : g.OK) (h : SInv g σ) {k : Server.Tick N T S} (hk : GoodTick g cfg k)
    (he : σ.iteration g cfg k = .ok σ') {tr : List (Ev N)} (htr : evs σ.out = tr) (hev : evs σ'.out = tr)
    (hx : OrphanExact g tr) :
    (∀ x, TaskFinished g tr x → (σ'.pending x).length ≤ (σ.pending x).length) ∧
    (∀ n, Ready g tr n → (σ.pending (g.task n)).length ≤ (σ'.pending (g.task n)).length) ∧
    (k.recv = .nothing → ∀ x, firstWaiting cfg σ = some x → (∀ n, g.task n = x → ¬ Ready g tr n) ∧
      (TaskFinished g tr x → (σ'.pending x).length < (σ.pending x).length)) ∧
    (∀ t s, k.recv = .msg (.acquire t) s → ∀ n, g.task n = t → ¬ Ready g tr n) ∧
    (∀ n s, GivesBack k n s → holder σ.out n ≠ some s) := by
  subst htr
  exact steady_iteration hg h hk he hev hx

/-! ### Executions without end -/

theorem stabilizes (f : Nat → Nat) (hm : ∀ i, f i ≤ f (i + 1)) {B : Nat} (hb : ∀ i, f i ≤ B) :
    ∃ I, ∀ j, I ≤ j → f j = f I := by
  have hmono : Monotone f := monotone_nat_of_le_succ hm
  have key : ∀ d i, B - f i ≤ d → ∃ I, ∀ j, I ≤ j → f j = f I := by
    intro d
    induction d with
    | zero =>
      intro i hi
      refine ⟨i, fun j hj => ?_⟩
      have := hmono hj
      have := hb j
      omega
    | succ d ih =>
      intro i hi
      by_cases h : ∀ j, i ≤ j → f j = f i
      · exact ⟨i, h⟩
      · push Not at h
        obtain ⟨j, hj, hne⟩ := h
        have h1 := hmono hj
        have h2 := hb j
        exact ih j (by omega)
  exact key _ 0 (le_refl _)

section
variable {σs : Nat → Server N T K S} {kf : Nat → Server.Tick N T S}

theorem Spec.Forever.run (h : Forever g cfg σs kf) (i : Nat) : ∃ ks, SRun g cfg ks (σs i) := by
  induction i with
  | zero => exact ⟨[], by rw [h.init]; exact SRun.init⟩
  | succ i ih =>
    obtain ⟨ks, ih⟩ := ih
    cases hs : (σs i).stop with
    | true => exact ⟨ks, by rw [h.stopped i hs]; exact ih⟩
    | false => exact ⟨_, SRun.step (kf i) ih hs (h.good i) (h.step i hs)⟩

theorem Spec.Forever.out (hg : g.Loose) (h : Forever g cfg σs kf) (i : Nat) :
    ∃ os, (σs (i + 1)).out = (σs i).out ++ os := by
  cases hs : (σs i).stop with
  | true => exact ⟨[], by rw [h.stopped i hs]; simp⟩
  | false =>
    obtain ⟨ks, hr⟩ := h.run i
    exact chain_out (iteration_chain hg (hr.inv hg) (h.good i) (h.step i hs))

/-- From some moment on nothing happens to any block any more. -/
theorem Spec.Forever.quiet (hg : g.OK) (h : Forever g cfg σs kf) :
    ∃ I, ∀ j, I ≤ j → evs (σs j).out = evs (σs I).out := by
  obtain ⟨I, hI⟩ := stabilizes (fun i => (evs (σs i).out).length)
    (fun i => by
      obtain ⟨os, e⟩ := h.out hg i
      simp only [e, evs_append, List.length_append]
      omega)
    (fun i => by
      obtain ⟨ks, hr⟩ := h.run i
      exact C24_finite_partial hg (hr.inv hg).run)
  refine ⟨I, fun j hj => ?_⟩
  obtain ⟨d, rfl⟩ := Nat.exists_eq_add_of_le hj
  clear hj
  induction d with
  | zero => rfl
  | succ d ih =>
    obtain ⟨os, e⟩ := h.out hg (I + d)
    have h1 := hI (I + d) (by omega)
    have h2 := hI (I + d + 1) (by omega)
    rw [← h1] at h2
    simp only [e, evs_append, List.length_append] at h2
    rw [← Nat.add_assoc, e, evs_append, List.eq_nil_of_length_eq_zero (l := evs os) (by omega),
      List.append_nil, ih]

/-- Once nothing happens to any block any more, nobody has one. -/
theorem Spec.Forever.nobody (hg : g.OK) (h : Forever g cfg σs kf) (hf : Fair g σs kf)
    (hns : ∀ i, (σs i).stop = false) {I : Nat} (hI : ∀ j, I ≤ j → evs (σs j).out = evs (σs I).out)
    (hx : OrphanExact g (evs (σs I).out)) (j : Nat) (hj : I ≤ j) (n : N) : holder (σs j).out n = none := by
  have hstep : ∀ j, I ≤ j → ∀ n, holder (σs (j + 1)).out n = holder (σs j).out n := by
    intro j hj n
    obtain ⟨os, e⟩ := h.out hg j
    obtain ⟨ks, hr⟩ := h.run (j + 1)
    exact holder_steady hg hr e (by rw [hI j hj, hI (j + 1) (by omega)]) n
  have hconst : ∀ d n, holder (σs (j + d)).out n = holder (σs j).out n := by
    intro d
    induction d with
    | zero => intro n; rfl
    | succ d ih => intro n; rw [← Nat.add_assoc, hstep _ (by omega), ih]
  cases hh : holder (σs j).out n with
  | none => rfl
  | some s =>
    exfalso
    obtain ⟨j', hj', hc⟩ := hf.returned j n s hh
    obtain ⟨d, rfl⟩ := Nat.exists_eq_add_of_le hj'
    have e1 := hconst d n
    have e2 := hconst (d + 1) n
    rw [hh] at e1 e2
    obtain ⟨ks, hr⟩ := h.run (j + d)
    have hit := h.step (j + d) (hns _)
    rcases hc with hc | hc | hc
    · rw [hns] at hc; cases hc
    · exact (steady_iteration hg (hr.inv hg) (h.good _) hit
        (by rw [hI _ (by omega), hI (j + d) (by omega)]) (by rw [hI _ (by omega)]; exact hx)).2.2.2.2 n s hc e1
    · have := (C32_iteration hg hr (h.good _) hit).1 n s e2
      rw [hc] at this
      cases this

/-- A fair execution stops. -/
theorem Spec.Forever.stops (hg : g.OK) {trank : T → Nat} (ho : TaskOrder g trank)
    (hserved : cfg.served.Pairwise (fun a b => trank a ≤ trank b)) (hall : ∀ n ∈ g.nodes, g.task n ∈ cfg.served)
    (h : Forever g cfg σs kf) (hf : Fair g σs kf) (hx : ∀ i, OrphanExact g (evs (σs i).out)) :
    ∃ i, (σs i).stop = true := by
  by_contra hno
  have hns : ∀ i, (σs i).stop = false := by
    intro i
    cases hs : (σs i).stop with
    | false => rfl
    | true => exact absurd ⟨i, hs⟩ hno
  obtain ⟨I, hI⟩ := h.quiet hg
  have hnob := h.nobody hg hf hns hI (hx I)
  obtain ⟨ksI, hrI⟩ := h.run I
  have hheld : ∀ n, ¬ Held (evs (σs I).out) n := fun n hc => ((hrI.inv hg).held n).1 hc (hnob I (le_refl _) n)
  have hsteady := fun j (hj : I ≤ j) => steady_iteration' hg ((h.run j).choose_spec.inv hg) (h.good j)
    (h.step j (hns j)) (hI j hj) (hI (j + 1) (by omega)) (hx I)
  by_cases hfin : ∀ n ∈ g.nodes, Done (evs (σs I).out) n ∨ Dead g (evs (σs I).out) n ∨ Orphan g (evs (σs I).out) n
  · -- everything is finished
    obtain ⟨j, hj, hc⟩ := hf.late I
    rcases hc with hc | hc
    · rw [hns] at hc; cases hc
    obtain ⟨ks, hr⟩ := h.run (j + 1)
    have hit := h.step j (hns j)
    obtain ⟨σ1, σ2, _, _, h3⟩ := iteration_split hit
    rw [if_pos hc] at h3
    have hstop := hns (j + 1)
    have hcs := checkAll_spec (g := g) σ2
    have hfr := checkAll_frame (g := g) σ2
    rw [← h3] at hcs hfr
    have : (σs (j + 1)).stop = true := by
      refine hcs.2.1.2 (Or.inr fun t _ => ?_)
      rw [← hfr.sched]
      refine (C22_loose_is_done_partial hg (hr.inv hg).run (hx _) t).2 ?_
      rw [hI (j + 1) (by omega)]
      exact fun n hn _ => hfin n hn
    rw [this] at hstop
    cases hstop
  · push Not at hfin
    obtain ⟨n0, hn0, u1, u2, u3⟩ := hfin
    have hexr : ∃ m, Ready g (evs (σs I).out) m := by
      by_cases hr : Ready g (evs (σs I).out) n0
      · exact ⟨n0, hr⟩
      · obtain ⟨a, _, ha⟩ := ready_ancestor hg hheld hn0 u1 u2 u3 hr
        exact ⟨a, ha⟩
    -- a ready block whose task is as far upstream as possible
    obtain ⟨m, hm, hmin⟩ : ∃ m, Ready g (evs (σs I).out) m ∧
        ∀ m', Ready g (evs (σs I).out) m' → trank (g.task m) ≤ trank (g.task m') := by
      classical
      have hex : ∃ r, ∃ m, Ready g (evs (σs I).out) m ∧ trank (g.task m) = r := ⟨_, hexr.choose,
        hexr.choose_spec, rfl⟩
      obtain ⟨m, h1, h2⟩ := Nat.find_spec hex
      exact ⟨m, h1, fun m' h' => by rw [h2]; exact Nat.find_min' hex ⟨m', h', rfl⟩⟩
    have hrec : Recruited (σs I) (g.task m) := by
      rcases hrI.staffed hg ho (hx I) (hnob I (le_refl _)) m hm with h1 | ⟨m', h1, _, h2⟩
      · exact (hrI.recruited hg _).1 h1
      · have := hmin m' h1
        omega
    obtain ⟨j, hj, hc⟩ := hf.asked I _ hrec
    rcases hc with hc | hc | ⟨s, hc⟩ | hc
    · rw [hns] at hc; cases hc
    · rw [hI j hj] at hc
      have hd := (C19_disjoint_partial hg (hrI.inv hg).run m).1 hm
      have := hc m hm.1 rfl
      tauto
    · exact (hsteady j hj).2.2.2.1 _ s hc m rfl hm
    · -- the request waits behind requests for finished tasks only
      have hwait : ∀ d, (σs (j + d)).pending (g.task m) ≠ [] := by
        intro d
        induction d with
        | zero => exact hc
        | succ d ih =>
          have := (hsteady (j + d) (by omega)).2.1 m hm
          intro e
          rw [← Nat.add_assoc] at e
          rw [e] at this
          exact ih (List.eq_nil_of_length_eq_zero (by simpa using this))
      obtain ⟨pre, post, hpp⟩ := List.append_of_mem (hall m hm.1)
      classical
      let fin : List T := pre.filter (fun x => TaskFinished g (evs (σs I).out) x)
      let M : Nat → Nat := fun i => (fin.map (fun x => ((σs i).pending x).length)).sum
      have hM : ∀ i, I ≤ i → M (i + 1) ≤ M i := by
        intro i hi
        refine List.sum_le_sum (fun x hx => ?_)
        exact (hsteady i hi).1 x (by simpa using (List.mem_filter.1 hx).2)
      have hMm : ∀ i d, I ≤ i → M (i + d) ≤ M i := by
        intro i d hi
        induction d with
        | zero => exact le_refl _
        | succ d ih => exact le_trans (hM (i + d) (by omega)) ih
      have hidle : ∀ i, j ≤ i → (kf i).recv = .nothing → M (i + 1) < M i := by
        intro i hi hk
        have hfw : ∃ x, firstWaiting cfg (σs i) = some x ∧ (x ∈ pre ∨ x = g.task m) := by
          obtain ⟨d, rfl⟩ := Nat.exists_eq_add_of_le hi
          have hw := hwait d
          unfold firstWaiting
          rw [hpp, List.find?_append]
          cases hfp : pre.find? (fun t => decide (((σs (j + d)).pending t).length ≠ 0)) with
          | some x => exact ⟨x, rfl, Or.inl (List.mem_of_find?_eq_some hfp)⟩
          | none => exact ⟨g.task m, by simp [hw], Or.inr rfl⟩
        obtain ⟨x, hx1, hx2⟩ := hfw
        have h3 := (hsteady i (by omega)).2.2.1 hk x hx1
        have hxp : x ∈ pre := by
          rcases hx2 with h | h
          · exact h
          · exact absurd hm (h3.1 m h.symm)
        have hrank : trank x ≤ trank (g.task m) := by
          rw [hpp, List.pairwise_append] at hserved
          exact hserved.2.2 x hxp _ List.mem_cons_self
        have hxf : TaskFinished g (evs (σs I).out) x := by
          intro n hn hnt
          by_contra hcon
          push Not at hcon
          have hnr := h3.1 n hnt
          obtain ⟨a, ha, har⟩ := ready_ancestor hg hheld hn hcon.1 hcon.2.1 hcon.2.2 hnr
          rcases (TaskOrder.anc hg ho hn ha).2 with h4 | h4
          · exact h3.1 a (h4.trans hnt) har
          · have := hmin a har
            rw [hnt] at h4
            omega
        have hxm : x ∈ fin := List.mem_filter.2 ⟨hxp, by simpa using hxf⟩
        refine List.sum_lt_sum _ _ (fun y hy => ?_) ⟨x, hxm, h3.2 hxf⟩
        exact (hsteady i (by omega)).1 y (by simpa using (List.mem_filter.1 hy).2)
      have key : ∀ b i, j ≤ i → M i ≤ b → False := by
        intro b
        induction b with
        | zero =>
          intro i hi hb
          obtain ⟨i', hi', hc'⟩ := hf.idle i
          rcases hc' with hc' | hc'
          · rw [hns] at hc'; cases hc'
          · have h1 := hidle i' (by omega) hc'
            obtain ⟨d, rfl⟩ := Nat.exists_eq_add_of_le hi'
            have h2 := hMm i d (by omega)
            omega
        | succ b ih =>
          intro i hi hb
          obtain ⟨i', hi', hc'⟩ := hf.idle i
          rcases hc' with hc' | hc'
          · rw [hns] at hc'; cases hc'
          · have h1 := hidle i' (by omega) hc'
            obtain ⟨d, rfl⟩ := Nat.exists_eq_add_of_le hi'
            have h2 := hMm i d (by omega)
            exact ih (i + d + 1) (by omega) (by omega)
      exact key _ j (le_refl _) (le_refl _)

end

end Verif
