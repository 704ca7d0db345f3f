import Verif.Proofs.ServerFair

/-! # The end of an execution of the server -/

set_option linter.unusedSectionVars false

namespace Verif

open Spec

variable {N T K S : Type} [DecidableEq N] [DecidableEq T] [DecidableEq K] [DecidableEq S]
  {g : DGraph N T K} {cfg : SConf T} {σ σ' : Server N T K S}

theorem acquireLoop_prefix (g : DGraph N T K) (t : T) : ∀ (fuel : Nat) (chk : Nat → N → Check) (k : Nat)
    (st : Sched N T K) (acc skips : List N) (r : Option N) (st' : Sched N T K),
    Sched.acquireLoop g t fuel chk k st acc = .ok (skips, r, st') → acc <+: skips
  | 0, _, _, _, _, _, _, _, h => by cases h
  | fuel + 1, chk, k, st, acc, skips, r, st', h => by
    unfold Sched.acquireLoop at h
    split at h
    · cases h
    · cases h; exact List.prefix_refl _
    · simp only at h
      split at h
      · split at h
        · cases h
        · exact (List.prefix_append _ _).trans (acquireLoop_prefix g t fuel _ _ _ _ _ _ _ h)
      · cases h; exact List.prefix_refl _

/-- A request that gets nothing does not change the counters. -/
theorem acquireBlock_none {chk : Nat → N → Check} {st st' : Sched N T K} {t : T}
    (h : st.acquireBlock g chk t = .ok ([], none, st')) : st'.states = st.states := by
  unfold Sched.acquireBlock Sched.acquireLoop at h
  split at h
  · cases h
  · cases h; rfl
  · simp only at h
    split at h
    · split at h
      · cases h
      · have := acquireLoop_prefix g t _ _ _ _ _ _ _ _ h
        simp at this
    · cases h

/-- Nothing can be done any more. -/
def Over (g : DGraph N T K) (σ : Server N T K S) : Prop :=
  (∀ n, ¬ Ready g (evs σ.out) n) ∧ ∀ n, ¬ Held (evs σ.out) n

theorem over_acquire (hg : g.Loose) (h : SCore g σ) (ho : Over g σ) {chk : Nat → N → Check} {t : T}
    {skips : List N} {r : Option N} {st' : Sched N T K}
    (ha : σ.sched.acquireBlock g chk t = .ok (skips, r, st')) : skips = [] ∧ r = none := by
  have hl := loose_legal hg (Run.acquire chk t h.run ha)
  cases skips with
  | cons n skips =>
    exact absurd (hl (evs σ.out) (.skip n) (skips.map .skip ++ (r.map Ev.hand).toList)
      (by simp [acquireEvents])) (ho.1 n)
  | nil =>
    refine ⟨rfl, ?_⟩
    cases r with
    | none => rfl
    | some n => exact absurd (hl (evs σ.out) (.hand n) [] (by simp [acquireEvents])) (ho.1 n)

/-- Steps after the end do nothing. -/
theorem over_micro (hg : g.Loose) (h : SCore g σ) (ho : Over g σ) (hm : Micro g σ σ') :
    evs σ'.out = evs σ.out ∧ σ'.sched.states = σ.sched.states ∧
    (σ'.stop = true → σ.stop = true ∨ ∀ t ∈ g.tasks, (σ.sched.states t).isDone = true) := by
  cases hm with
  | @send chk t s n skips st' bk ha hn ht => cases (over_acquire hg h ho ha).2
  | @shut chk t s skips st' ha h1 h2 =>
    obtain ⟨rfl, _⟩ := over_acquire hg h ho ha
    have hf := recruit_frame (g := g) ({ σ with
      sched := st', out := σ.out ++ ([] : List N).map .skip ++ [.shutdown s t] } : Server N T K S)
    refine ⟨?_, ?_, ?_⟩
    · rw [hf.evs]; simp [evs, toEv]
    · rw [hf.sched]; exact acquireBlock_none ha
    · intro hs
      rw [(recruit_spec _).2.2.1] at hs
      exact Or.inl hs
  | @delay chk t skips st' p ha h1 h2 =>
    obtain ⟨rfl, _⟩ := over_acquire hg h ho ha
    exact ⟨by simp, acquireBlock_none ha, fun hs => Or.inl hs⟩
  | @rel pick n status st' hn hs hr => exact absurd ((h.held n).2 hn) (ho.2 n)
  | check =>
    have hf := checkAll_frame (g := g) σ
    exact ⟨hf.evs, by rw [hf.sched], (checkAll_spec σ).2.1.1⟩
  | fail n w => exact ⟨by simp [Server.emit, evs, toEv], rfl, fun hs => Or.inl hs⟩
  | book bk => exact ⟨rfl, rfl, fun hs => Or.inl hs⟩
  | pop p => exact ⟨rfl, rfl, fun hs => Or.inl hs⟩

theorem over_chain (hg : g.Loose) (ho : Over g σ) (hc : Chain g σ σ') :
    evs σ'.out = evs σ.out ∧ σ'.sched.states = σ.sched.states ∧
    (σ'.stop = true → σ.stop = true ∨ ∀ t ∈ g.tasks, (σ.sched.states t).isDone = true) := by
  refine hc.induct (P := fun σ' => evs σ'.out = evs σ.out ∧ σ'.sched.states = σ.sched.states ∧
    (σ'.stop = true → σ.stop = true ∨ ∀ t ∈ g.tasks, (σ.sched.states t).isDone = true)) ?_
    ⟨rfl, rfl, fun h => Or.inl h⟩
  rintro a b ha _ hm ⟨i1, i2, i3⟩
  have := over_micro hg ha (by unfold Over; rw [i1]; exact ho) hm
  rw [i1, i2] at this
  refine ⟨this.1, this.2.1, fun hs => ?_⟩
  rcases this.2.2 hs with h | h
  · exact i3 h
  · exact Or.inr h

/-- After the end only the counters decide whether the server stops. -/
theorem over_steps (hg : g.Loose) {ks ks' : List (Server.Tick N T S)} (h : SRun g cfg ks σ) (ho : Over g σ)
    (h' : SSteps g cfg σ ks' σ') :
    evs σ'.out = evs σ.out ∧ σ'.sched.states = σ.sched.states ∧
    (σ'.stop = true → σ.stop = true ∨ ∀ t ∈ g.tasks, (σ.sched.states t).isDone = true) := by
  induction h' with
  | nil => exact ⟨rfl, rfl, fun h => Or.inl h⟩
  | @step ks1 σ₁ σ₂ k hst _ hk he ih =>
    obtain ⟨i1, i2, i3⟩ := ih
    have := over_chain hg (σ := σ₁) (by unfold Over; rw [i1]; exact ho)
      (iteration_chain hg ((h.steps hst).inv hg) hk he)
    rw [i1, i2] at this
    refine ⟨this.1, this.2.1, fun hs => ?_⟩
    rcases this.2.2 hs with h | h
    · exact i3 h
    · exact Or.inr h

/-! ### Finishing -/

/-- An iteration in which nothing else happens. -/
def plainTick (pick : Nat → Finset N → N) (recv : Server.Recv N T S) (late : Bool) : Server.Tick N T S where
  recv := recv
  chk := fun _ _ => .reject
  pick := pick
  now := 0
  closed := fun _ => false
  clock := fun _ => 0
  pickLost := fun _ => pick
  late := late

/-- What such an iteration does to the history is what the message does to it. -/
theorem plain_iteration (hg : g.Loose) (h : SInv g σ) {pick : Nat → Finset N → N} (hp : LegalPick pick)
    {recv : Server.Recv N T S} (hr : ∀ m s, recv = .msg m s → GoodMsg g cfg m) (late : Bool) :
    ∃ σ1 σ', σ.handleMessages g cfg (fun _ _ => .reject) pick 0 recv = .ok σ1 ∧
      σ.iteration g cfg (plainTick pick recv late) = .ok σ' ∧ evs σ'.out = evs σ1.out := by
  obtain ⟨σ1, g1, g2⟩ := handleMessages_ok hg h recv hr (fun _ _ => .reject) hp 0
  obtain ⟨σ2, os, L, c1, _, _, _, c5, _, c7, _, c9, _⟩ := checkLost_ok hg g2 (pick := fun _ => pick)
    (fun _ => hp) (fun _ => false) (fun _ => 0)
  refine ⟨σ1, if late then σ2.checkAll g else σ2, g1, ?_, ?_⟩
  · unfold Server.iteration
    simp only [plainTick]
    rw [g1]
    simp only
    rw [c1]
    rfl
  · have hL : L = [] := List.eq_nil_iff_forall_not_mem.2 (fun n hn => by
      obtain ⟨s, _, hc⟩ := (c9 n).1 hn
      cases hc)
    rw [(late_frame (g := g) σ2 late).evs, c5, evs_append, c7, hL]
    simp

/-- A block that is held is given back. -/
theorem finish_release (hg : g.Loose) (h : SInv g σ) {pick : Nat → Finset N → N} (hp : LegalPick pick) {n : N} {s : S}
    (hn : holder σ.out n = some s) :
    GoodTick g cfg (plainTick pick (.msg (.release n .success) s) false : Server.Tick N T S) ∧
    ∃ σ', σ.iteration g cfg (plainTick pick (.msg (.release n .success) s) false) = .ok σ' ∧
      evs σ'.out = evs σ.out ++ [.good n] := by
  have hm := h.toSCore.mem hg (n := n) (by rw [hn]; simp)
  have hgm : ∀ m s', (Server.Recv.msg (.release n .success) s : Server.Recv N T S) = .msg m s' →
      GoodMsg g cfg m := by
    intro m s' e
    cases e
    exact ⟨hm, Or.inl rfl⟩
  refine ⟨⟨hgm, hp, fun _ => hp⟩, ?_⟩
  obtain ⟨σ1, σ', e1, e2, e3⟩ := plain_iteration (cfg := cfg) hg h hp hgm false
  refine ⟨σ', e2, ?_⟩
  obtain ⟨σ3, r1, _, _, r4⟩ := safeRelease_spec hg h hm (s := s) (Or.inl rfl) hp
  simp only [Server.handleMessages, Server.handle, r1] at e1
  cases e1
  rw [if_pos hn] at r4
  obtain ⟨os, r4, r5⟩ := r4
  rw [e3, (checkAll_frame (g := g) σ3).evs, r4]
  have : σ.out ++ .release n .success :: os = (σ.out ++ [.release n .success]) ++ os := by simp
  rw [this, evs_append, evs_append, evs_silent r5]
  simp [evs, toEv]

/-- A ready block is handed out. -/
theorem finish_loose (hg : g.Loose) (h : SInv g σ) {pick : Nat → Finset N → N} (hp : LegalPick pick) {m : N} (s : S)
    (hm : Ready g (evs σ.out) m) (hs : ¬ Starved g m) (ht : g.task m ∈ cfg.served) :
    GoodTick g cfg (plainTick pick (.msg (.acquire (g.task m)) s) false : Server.Tick N T S) ∧
    ∃ σ' n, σ.iteration g cfg (plainTick pick (.msg (.acquire (g.task m)) s) false) = .ok σ' ∧
      evs σ'.out = evs σ.out ++ [.hand n] := by
  have hgm : ∀ m' s', (Server.Recv.msg (.acquire (g.task m)) s : Server.Recv N T S) = .msg m' s' →
      GoodMsg g cfg m' := by
    intro m' s' e
    cases e
    exact ht
  refine ⟨⟨hgm, hp, fun _ => hp⟩, ?_⟩
  obtain ⟨σ1, σ', e1, e2, e3⟩ := plain_iteration (cfg := cfg) hg h hp hgm false
  obtain ⟨σ3, skips, r, a1, a2, a3, a4⟩ := handleAcquire_spec (cfg := cfg) hg h (fun _ _ => .reject) 0 s ht
  simp only [Server.handleMessages, Server.handle, a1] at e1
  cases e1
  have hsk : skips = [] := by
    obtain ⟨skips', r', st', b1, _, b3, _⟩ := C25_loose hg h.run (fun _ _ => .reject) (g.task m)
    rw [a3] at b1
    cases b1
    cases skips with
    | nil => rfl
    | cons x l => cases (b3 0 x rfl).1
  subst hsk
  cases r with
  | none =>
    refine absurd ((C26_loose_acquire_none hg h.run a3).1 rfl |>.2 m rfl ?_) hs
    simpa [acquireEvents] using hm
  | some n =>
    refine ⟨σ', n, e2, ?_⟩
    rw [e3, (checkAll_frame (g := g) σ3).evs, a4.1]
    simp [evs, toEv]

theorem finish_acquire (hg : g.OK) (h : SInv g σ) {pick : Nat → Finset N → N} (hp : LegalPick pick) {m : N} (s : S)
    (hm : Ready g (evs σ.out) m) (ht : g.task m ∈ cfg.served) :
    GoodTick g cfg (plainTick pick (.msg (.acquire (g.task m)) s) false : Server.Tick N T S) ∧
    ∃ σ' n, σ.iteration g cfg (plainTick pick (.msg (.acquire (g.task m)) s) false) = .ok σ' ∧
      evs σ'.out = evs σ.out ++ [.hand n] :=
  finish_loose hg h hp s hm (not_starved hg m) ht

theorem SSteps.trans {σ'' : Server N T K S} {ks ks' : List (Server.Tick N T S)} (h : SSteps g cfg σ ks σ')
    (h' : SSteps g cfg σ' ks' σ'') : SSteps g cfg σ (ks ++ ks') σ'' := by
  induction h' with
  | nil => simpa using h
  | step k _ hs hk he ih => rw [← List.append_assoc]; exact SSteps.step k ih hs hk he

theorem dead_snoc {tr : List (Ev N)} {e : Ev N} (he : ∀ n, e ≠ .bad n) (n : N) :
    Dead g (tr ++ [e]) n ↔ Dead g tr n := by
  unfold Dead
  rw [List.count_append, List.mem_append, List.mem_singleton]
  have : List.count (Ev.bad n) [e] = 0 := by
    rw [List.count_eq_zero, List.mem_singleton]
    exact fun h => he n h.symm
  rw [this]
  have := he n
  constructor
  · rintro ⟨h1 | h1, h2⟩
    · exact ⟨h1, h2⟩
    · exact absurd h1.symm this
  · rintro ⟨h1, h2⟩
    exact ⟨Or.inl h1, h2⟩

theorem safe_dead {tr tr' : List (Ev N)} (h : ∀ n, Dead g tr' n ↔ Dead g tr n) (hx : OrphanSafe g tr) :
    OrphanSafe g tr' := by
  intro n hn
  simp only [Orphan, h]
  exact hx n hn

theorem SInv.iteration (hg : g.Loose) (h : SInv g σ) {k : Server.Tick N T S} (hk : GoodTick g cfg k)
    (he : σ.iteration g cfg k = .ok σ') : SInv g σ' := by
  obtain ⟨σ1, h1, h2⟩ := iteration_ok hg h hk
  rw [h1] at he
  cases he
  exact h2

/-- Something can be done, or the next check stops the server. -/
theorem one_more (hg : g.OK) (hall : ∀ n ∈ g.nodes, g.task n ∈ cfg.served) (s : S)
    {pick : Nat → Finset N → N} (hp : LegalPick pick) (hI : SInv g σ)
    (hx : OrphanExact g (evs σ.out)) :
    (∃ k σ' e, GoodTick g cfg k ∧ σ.iteration g cfg k = .ok σ' ∧ evs σ'.out = evs σ.out ++ [e] ∧
      ∀ n, e ≠ .bad n) ∨
    ∃ k σ', GoodTick g cfg k ∧ σ.iteration g cfg k = .ok σ' ∧ evs σ'.out = evs σ.out ∧ σ'.stop = true := by
  by_cases hh : ∃ n s, holder σ.out n = some s
  · obtain ⟨n, s', hn⟩ := hh
    obtain ⟨a1, σ', a2, a3⟩ := finish_release (cfg := cfg) hg hI hp hn
    exact Or.inl ⟨_, σ', _, a1, a2, a3, by simp⟩
  by_cases hr : ∃ m, Ready g (evs σ.out) m
  · obtain ⟨m, hm⟩ := hr
    obtain ⟨a1, σ', n, a2, a3⟩ := finish_acquire (cfg := cfg) hg hI hp s hm (hall m hm.1)
    exact Or.inl ⟨_, σ', _, a1, a2, a3, by simp⟩
  right
  have hgm : ∀ m s', (Server.Recv.closed : Server.Recv N T S) = .msg m s' → GoodMsg g cfg m := by
    intro m s' e; cases e
  obtain ⟨σ1, σ', e1, e2, e3⟩ := plain_iteration (cfg := cfg) hg hI hp hgm true
  cases e1
  refine ⟨_, σ', ⟨hgm, hp, fun _ => hp⟩, e2, e3, ?_⟩
  have hI' := (iteration_ok hg hI (k := plainTick pick .closed true) ⟨hgm, hp, fun _ => hp⟩)
  obtain ⟨σ'', f1, f2⟩ := hI'
  rw [e2] at f1
  cases f1
  obtain ⟨σ1, σ2, _, _, h3⟩ := iteration_split e2
  have h3 : σ' = σ2.checkAll g := h3
  have hcs := checkAll_spec (g := g) σ2
  have hfr := checkAll_frame (g := g) σ2
  rw [← h3] at hcs hfr
  refine hcs.2.1.2 (Or.inr fun t _ => ?_)
  rw [← hfr.sched]
  refine (C22_loose_is_done_partial hg f2.run (by rw [e3]; exact hx) t).2 ?_
  rw [e3]
  intro n hn _
  by_contra hc
  push Not at hc
  have hheld : ∀ n, ¬ Held (evs σ.out) n := fun n hc => (hI.held n).1 hc (by
    cases ho : holder σ.out n with
    | none => rfl
    | some s => exact absurd ⟨n, s, ho⟩ hh)
  obtain ⟨a, _, ha⟩ := ready_ancestor hg hheld hn hc.1 hc.2.1 hc.2.2 (fun h => hr ⟨n, h⟩)
  exact hr ⟨a, ha⟩

/-- The server can be brought to its end without any further failure. -/
theorem can_finish (hg : g.OK) (hall : ∀ n ∈ g.nodes, g.task n ∈ cfg.served) (s : S)
    {pick : Nat → Finset N → N} (hp : LegalPick pick) :
    ∀ (d : Nat) (σ : Server N T K S), SInv g σ →
      OrphanSafe g (evs σ.out) →
      (g.nodes.map (fun n => 2 * ((g.maxRetries (g.task n)).toNat + 1) + 1)).sum - (evs σ.out).length ≤ d →
      ∃ ks' σ', SSteps g cfg σ ks' σ' ∧ σ'.stop = true ∧ ∀ n, Dead g (evs σ'.out) n ↔ Dead g (evs σ.out) n := by
  intro d
  induction d with
  | zero =>
    intro σ h hx hd
    cases hs : σ.stop with
    | true => exact ⟨[], σ, SSteps.nil, hs, fun _ => Iff.rfl⟩
    | false =>
      rcases one_more hg hall s hp h (hx.exact hg h.run) with ⟨k, σ', e, h1, h2, h3, h4⟩ | ⟨k, σ', h1, h2, h3, h4⟩
      · have := C24_finite_partial hg (h.iteration hg h1 h2).run
        rw [h3, List.length_append, List.length_singleton] at this
        omega
      · exact ⟨[k], σ', SSteps.step k SSteps.nil hs h1 h2, h4, fun n => by rw [h3]⟩
  | succ d ih =>
    intro σ h hx hd
    cases hs : σ.stop with
    | true => exact ⟨[], σ, SSteps.nil, hs, fun _ => Iff.rfl⟩
    | false =>
      rcases one_more hg hall s hp h (hx.exact hg h.run) with ⟨k, σ', e, h1, h2, h3, h4⟩ | ⟨k, σ', h1, h2, h3, h4⟩
      · have hdead : ∀ n, Dead g (evs σ'.out) n ↔ Dead g (evs σ.out) n := fun n => by
          rw [h3]; exact dead_snoc h4 n
        obtain ⟨ks', σ'', i1, i2, i3⟩ := ih σ' (h.iteration hg h1 h2) (safe_dead hdead hx)
          (by rw [h3, List.length_append, List.length_singleton]; omega)
        exact ⟨[k] ++ ks', σ'', (SSteps.step k SSteps.nil hs h1 h2 : SSteps g cfg σ ([] ++ [k]) σ').trans i1,
          i2, fun n => (i3 n).trans (hdead n)⟩
      · exact ⟨[k], σ', SSteps.step k SSteps.nil hs h1 h2, h4, fun n => by rw [h3]⟩

end Verif
