import Verif.Proofs.StarvedLift
import Verif.Proofs.Scheduler

/-! # Executions with starved blocks -/

set_option linter.unusedSectionVars false

namespace Verif

open Spec

variable {N T K : Type} [DecidableEq N] [DecidableEq T] [DecidableEq K] {g : DGraph N T K}

/-- A block that is not starved. -/
def Fine (g : DGraph N T K) (n : N) : Prop := n ∈ g.nodes ∧ ¬ Starved g n

/-- Nothing in the queues is starved. -/
def QFine (g : DGraph N T K) (st : Sched N T K) : Prop :=
  ∀ t, ∀ n ∈ (st.queues t).rootGen ++ (st.queues t).readyQueue, Fine g n

/-- The same event. -/
def Ev.lift : Ev N → Ev (Option N)
  | skip n => skip (some n)
  | hand n => hand (some n)
  | good n => good (some n)
  | bad n => bad (some n)

namespace Sched

/-- The same state, with the given state of the additional task. -/
def liftAt (s : TState) (st : Sched N T K) : Sched (Option N) (Option T) (Option K) where
  rs := st.rs.lift
  states := fun t => match t with
    | none => s
    | some t => st.states t
  queues := fun t => match t with
    | none => PQueue.init 1 [none]
    | some t => (st.queues t).lift

theorem lift_eq (st : Sched N T K) : st.lift = st.liftAt ⟨false, 1, 1, 0, 0, 0, 0, 0⟩ := rfl

variable {s : TState} {st : Sched N T K}

theorem liftAt_modState (t : T) (f : TState → TState) :
    (st.modState t f).liftAt s = (st.liftAt s).modState (some t) f := by
  unfold liftAt modState
  simp only [mk.injEq, true_and, and_true]
  funext x
  rcases x with _ | x
  · simp [upd]
  · simp [upd]

theorem liftAt_modQueue (t : T) (f : PQueue N K → PQueue N K) (f' : PQueue (Option N) (Option K) → PQueue (Option N) (Option K))
    (h : f' (st.queues t).lift = (f (st.queues t)).lift) :
    (st.modQueue t f).liftAt s = (st.liftAt s).modQueue (some t) f' := by
  unfold liftAt modQueue
  simp only [mk.injEq, true_and]
  funext x
  rcases x with _ | x
  · simp [upd]
  · by_cases hx : x = t
    · subst hx; simp [upd, h]
    · simp [upd, hx]

theorem lift_init (g : DGraph N T K) : Sched.init g.fed = (Sched.init g).lift := by
  have k1 : ∀ (l : List T) (st : Sched N T K) (s : TState),
      (l.map some).foldl (fun st t =>
        (st.modState t (fun s => { s with ready := s.ready + g.fed.numRoots t })).modQueue t
          (fun _ => PQueue.init (g.fed.numRoots t) (g.fed.rootGen t))) (st.liftAt s) =
      (l.foldl (fun st t => (st.modState t (fun s => { s with ready := s.ready + g.numRoots t })).modQueue t
          (fun _ => PQueue.init (g.numRoots t) (g.rootGen t))) st).liftAt s := by
    intro l
    induction l with
    | nil => intro st s; rfl
    | cons t l ih =>
      intro st s
      rw [List.map_cons, List.foldl_cons, List.foldl_cons, ← ih]
      congr 1
      rw [← liftAt_modState (f := fun s => { s with ready := s.ready + g.fed.numRoots (some t) }),
        ← liftAt_modQueue t (fun _ => PQueue.init (g.numRoots t) (g.rootGen t))]
      · rfl
      · unfold PQueue.init PQueue.lift
        simp only [DGraph.fed, List.map_nil, Finset.image_empty, PQueue.mk.injEq, true_and, and_true]
        funext k
        rcases k with _ | k <;> rfl
  have k2 : ∀ (l : List T) (st : Sched N T K) (s : TState),
      (l.map some).foldl (fun st t => st.modState t (fun s => { s with total := g.fed.total t })) (st.liftAt s) =
      (l.foldl (fun st t => st.modState t (fun s => { s with total := g.total t })) st).liftAt s := by
    intro l
    induction l with
    | nil => intro st s; rfl
    | cons t l ih =>
      intro st s
      rw [List.map_cons, List.foldl_cons, List.foldl_cons, ← ih]
      congr 1
      exact (liftAt_modState _ _).symm
  unfold Sched.init
  simp only
  rw [show g.fed.rootTasks = none :: g.rootTasks.map some from rfl,
    show g.fed.tasks = none :: g.tasks.map some from rfl, List.foldl_cons, List.foldl_cons]
  have h1 : ((⟨RS.init, fun _ => TState.init, fun _ => PQueue.init 0 []⟩ : Sched (Option N) (Option T) (Option K)).modState
      none (fun s => { s with ready := s.ready + g.fed.numRoots none })).modQueue none
        (fun _ => PQueue.init (g.fed.numRoots none) (g.fed.rootGen none)) =
      (⟨RS.init, fun _ => TState.init, fun _ => PQueue.init 0 []⟩ : Sched N T K).liftAt ⟨false, 0, 1, 0, 0, 0, 0, 0⟩ := by
    unfold liftAt modState modQueue
    simp only [mk.injEq]
    refine ⟨rfl, ?_, ?_⟩
    · funext x
      rcases x with _ | x
      · simp [upd, TState.init, DGraph.fed]
      · simp [upd]
    · funext x
      rcases x with _ | x
      · simp [upd, DGraph.fed]
      · simp only [upd, reduceCtorEq, if_false]
        unfold PQueue.init PQueue.lift
        simp only [List.map_nil, Finset.image_empty, PQueue.mk.injEq, true_and, and_true]
        funext k
        rcases k with _ | k <;> rfl
  rw [h1, k1, lift_eq, ← k2]
  congr 1
  unfold liftAt modState
  simp only [mk.injEq, and_true, true_and]
  funext x
  rcases x with _ | x
  · simp [upd, DGraph.fed]
  · simp [upd]

theorem lift_modState (t : T) (f : TState → TState) :
    (st.modState t f).lift = st.lift.modState (some t) f := liftAt_modState t f

theorem lift_modQueue (t : T) (f : PQueue N K → PQueue N K) (f' : PQueue (Option N) (Option K) → PQueue (Option N) (Option K))
    (h : f' (st.queues t).lift = (f (st.queues t)).lift) :
    (st.modQueue t f).lift = st.lift.modQueue (some t) f' := liftAt_modQueue t f f' h

theorem lift_rs (rs : RS N) : ({ st with rs := rs } : Sched N T K).lift = { st.lift with rs := rs.lift } := rfl

theorem queueReadyBlock_lift (n : N) : st.lift.queueReadyBlock g.fed (some n) = (st.queueReadyBlock g n).lift := by
  unfold queueReadyBlock
  rw [lift_modState, lift_modQueue (g.task n) _ (fun q => { q with readyQueue := q.readyQueue ++ [some n] })]
  · rfl
  · simp [PQueue.lift]

theorem updateReadyQueue_lift : ∀ (ns : List N) (st : Sched N T K),
    st.lift.updateReadyQueue g.fed (ns.map some) = (st.updateReadyQueue g ns).lift := by
  intro ns
  induction ns with
  | nil => intro st; rfl
  | cons n ns ih =>
    intro st
    unfold updateReadyQueue at ih ⊢
    rw [List.map_cons, List.foldl_cons, List.foldl_cons, queueReadyBlock_lift, ih]

theorem removeFromProcessing_lift (n : N) : st.lift.removeFromProcessing g.fed (some n) =
    (st.removeFromProcessing g n).map lift := by
  have h1 : (g.fed.key (some n) ∈ (st.lift.queues (g.fed.task (some n))).processing) ↔
      (g.key n ∈ (st.queues (g.task n)).processing) := by
    show some (g.key n) ∈ ((st.queues (g.task n)).processing).image some ↔ _
    simp
  unfold removeFromProcessing
  by_cases h : g.key n ∈ (st.queues (g.task n)).processing
  · rw [if_pos h, if_pos (h1.2 h)]
    simp only [Except.map]
    rw [lift_modState, lift_modQueue (g.task n) _ (fun q => { q with processing := q.processing.erase (some (g.key n)) })]
    · rfl
    · simp [PQueue.lift, Finset.image_erase (Option.some_injective K)]
  · rw [if_neg h, if_neg (fun x => h (h1.1 x))]
    rfl

theorem countOrphans_lift (o : Finset N) : st.lift.countOrphans g.fed (o.image some) = (st.countOrphans g o).lift := by
  unfold countOrphans lift
  simp only [mk.injEq, true_and, and_true]
  funext x
  rcases x with _ | x
  · have : ((o.image some).filter (fun o => g.fed.task o = none)) = ∅ := by
      ext a
      simp only [Finset.mem_filter, Finset.mem_image, Finset.notMem_empty, iff_false]
      rintro ⟨⟨b, _, rfl⟩, h⟩
      cases h
    simp only
    rw [this]
    rfl
  · have : ((o.image some).filter (fun o => g.fed.task o = some x)) = (o.filter (fun o => g.task o = x)).image some := by
      ext a
      simp only [Finset.mem_filter, Finset.mem_image]
      constructor
      · rintro ⟨⟨b, hb, rfl⟩, h⟩
        exact ⟨b, ⟨hb, Option.some.inj h⟩, rfl⟩
      · rintro ⟨b, ⟨hb, h⟩, rfl⟩
        exact ⟨⟨b, hb, rfl⟩, congrArg some h⟩
    simp only
    rw [this, Finset.card_image_of_injective _ (Option.some_injective N)]

theorem release_good_lift (hg : g.Loose) {n : N} (hn : Fine g n) (pick : Nat → Finset N → N)
    (pick' : Nat → Finset (Option N) → Option N) (st : Sched N T K) :
    st.lift.releaseBlock g.fed pick' (some n) .success = (st.releaseBlock g pick n .success).map lift := by
  unfold releaseBlock
  rw [removeFromProcessing_lift]
  rcases hr : st.removeFromProcessing g n with e | st1
  · rfl
  · simp only [Except.map]
    rw [show st1.lift.rs = st1.rs.lift from rfl, RS.markSuccess_lift hg hn.1 hn.2]
    rcases hs : RS.markSuccess g st1.rs n with e | ⟨l, rs⟩
    · rfl
    · simp only [Except.map]
      rw [← updateReadyQueue_lift, lift_modState, lift_rs]
      rfl

theorem release_bad_lift (hg : g.Loose) {n : N} (hn : Fine g n) {pick : Nat → Finset N → N} (hp : LegalPick pick)
    (st : Sched N T K) : st.lift.releaseBlock g.fed (RS.liftPick pick) (some n) .failed =
      (st.releaseBlock g pick n .failed).map lift := by
  unfold releaseBlock
  rw [removeFromProcessing_lift]
  rcases hr : st.removeFromProcessing g n with e | st1
  · rfl
  · simp only [Except.map]
    by_cases hm : g.maxRetries (g.task n) ≤ (st1.queues (g.task n)).retries (g.key n)
    · rw [if_pos hm]
      rw [if_pos (show g.fed.maxRetries (g.fed.task (some n)) ≤
        (st1.lift.queues (g.fed.task (some n))).retries (g.fed.key (some n)) from hm)]
      rw [show st1.lift.rs = st1.rs.lift from rfl, RS.markFailure_lift hg hn.1 hn.2 hp]
      rcases hf : RS.markFailure g pick st1.rs n with e | ⟨o, rs⟩
      · rfl
      · simp only [Except.map]
        rw [← countOrphans_lift, lift_modState, lift_rs]
        rfl
    · rw [if_neg hm]
      rw [if_neg (show ¬ g.fed.maxRetries (g.fed.task (some n)) ≤
        (st1.lift.queues (g.fed.task (some n))).retries (g.fed.key (some n)) from hm)]
      simp only
      rw [lift_modQueue (g.task n) _ (fun q => { q with retries := upd q.retries (some (g.key n)) (q.retries (some (g.key n)) + 1) })]
      · rw [← queueReadyBlock_lift]
        rfl
      · simp only [PQueue.lift, PQueue.mk.injEq, true_and, and_true]
        funext k
        rcases k with _ | k <;> simp [upd]

theorem getNext_lift (q : PQueue N K) : q.lift.getNext = q.getNext.map (fun r => (r.1.map some, r.2.lift)) := by
  have h1 : q.lift.numReady = q.numReady := by simp [PQueue.numReady, PQueue.lift]
  unfold PQueue.getNext
  rw [h1]
  by_cases h : 0 < q.numReady
  · rw [if_pos h, if_pos h, show q.lift.readyRoots = q.readyRoots from rfl]
    by_cases h2 : 0 < q.readyRoots
    · rw [if_pos h2, if_pos h2, show q.lift.rootGen = q.rootGen.map some from rfl]
      rcases q.rootGen with _ | ⟨a, l⟩ <;> rfl
    · rw [if_neg h2, if_neg h2, show q.lift.readyQueue = q.readyQueue.map some from rfl]
      rcases q.readyQueue with _ | ⟨a, l⟩ <;> rfl
  · rw [if_neg h, if_neg h]
    rfl

/-! ### What is in the queues -/

theorem scanDown_among : ∀ (ms : List N) (rs : RS N) (ready : List N), ∀ x ∈ (RS.scanDown g ms rs ready).1, x ∈ ready ∨ x ∈ ms
  | [], _, _, x, hx => Or.inl hx
  | m :: ms, rs, ready, x, hx => by
    unfold RS.scanDown at hx
    rcases hb : RS.addToBoundary g rs m with ⟨_ | _, rs'⟩
    · rw [hb] at hx
      simp only at hx
      split at hx
      · rcases scanDown_among ms _ _ x hx with h | h
        · rcases List.mem_append.1 h with h | h
          · exact Or.inl h
          · exact Or.inr (by rw [List.mem_singleton.1 h]; exact List.mem_cons_self)
        · exact Or.inr (List.mem_cons_of_mem _ h)
      · rcases scanDown_among ms _ _ x hx with h | h
        · exact Or.inl h
        · exact Or.inr (List.mem_cons_of_mem _ h)
    · rw [hb] at hx
      rcases scanDown_among ms _ _ x hx with h | h
      · exact Or.inl h
      · exact Or.inr (List.mem_cons_of_mem _ h)

theorem markSuccess_among {rs rs' : RS N} {n : N} {l : List N} (h : RS.markSuccess g rs n = .ok (l, rs')) :
    ∀ x ∈ l, x ∈ g.down n := by
  unfold RS.markSuccess at h
  simp only at h
  split at h
  · cases h
  · have hs := scanDown_among (g := g) (g.down n) ({ rs with surface := insert n rs.surface } : RS N) []
    rcases hd : RS.scanDown g (g.down n) ({ rs with surface := insert n rs.surface } : RS N) [] with ⟨l', rs2⟩
    rw [hd] at h hs
    simp only at h
    have hl : l = l' := by
      split at h
      · cases h
      · split at h
        · split at h
          · cases h
          · cases h; rfl
        · cases h; rfl
    subst hl
    intro x hx
    rcases hs x hx with h | h
    · cases h
    · exact h

theorem qfine_queueReady {n : N} (hq : QFine g st) (hn : Fine g n) : QFine g (st.queueReadyBlock g n) := by
  intro t m hm
  have hm : m ∈ (if t = g.task n then
      ({ st.queues (g.task n) with readyQueue := (st.queues (g.task n)).readyQueue ++ [n] } : PQueue N K) else st.queues t).rootGen ++
      (if t = g.task n then
      ({ st.queues (g.task n) with readyQueue := (st.queues (g.task n)).readyQueue ++ [n] } : PQueue N K) else st.queues t).readyQueue := hm
  split at hm
  · simp only [List.mem_append, List.mem_singleton] at hm
    rcases hm with hm | hm | hm
    · exact hq _ m (List.mem_append_left _ hm)
    · exact hq _ m (List.mem_append_right _ hm)
    · rw [hm]; exact hn
  · exact hq t m hm

theorem qfine_update : ∀ (ns : List N) (st : Sched N T K), QFine g st → (∀ n ∈ ns, Fine g n) →
    QFine g (st.updateReadyQueue g ns)
  | [], _, hq, _ => hq
  | n :: ns, st, hq, hn => by
    unfold updateReadyQueue
    rw [List.foldl_cons]
    exact qfine_update ns _ (qfine_queueReady hq (hn n List.mem_cons_self)) (fun x hx => hn x (List.mem_cons_of_mem _ hx))

theorem qfine_of {st st' : Sched N T K} (h : ∀ t, (st'.queues t).rootGen = (st.queues t).rootGen ∧
    (st'.queues t).readyQueue = (st.queues t).readyQueue) (hq : QFine g st) : QFine g st' := by
  intro t n hn
  rw [(h t).1, (h t).2] at hn
  exact hq t n hn

theorem qfine_modQueue {t : T} {f : PQueue N K → PQueue N K} (h : (f (st.queues t)).rootGen = (st.queues t).rootGen ∧
    (f (st.queues t)).readyQueue = (st.queues t).readyQueue) (hq : QFine g st) : QFine g (st.modQueue t f) := by
  refine qfine_of (fun x => ?_) hq
  rw [modQueue_queues]
  split
  · next hx => subst hx; exact h
  · exact ⟨rfl, rfl⟩

theorem qfine_remove {n : N} {st' : Sched N T K} (h : st.removeFromProcessing g n = .ok st') (hq : QFine g st) :
    QFine g st' := by
  unfold removeFromProcessing at h
  split at h
  · cases h
    exact qfine_of (st := st.modQueue (g.task n) _) (fun _ => ⟨rfl, rfl⟩) (qfine_modQueue (st := st)
      (f := fun q => { q with processing := q.processing.erase (g.key n) }) ⟨rfl, rfl⟩ hq)
  · cases h

theorem qfine_release (hg : g.Loose) {n : N} (hn : Fine g n) {pick : Nat → Finset N → N} {status : BlockStatus}
    {st' : Sched N T K} (h : st.releaseBlock g pick n status = .ok st') (hq : QFine g st) : QFine g st' := by
  unfold releaseBlock at h
  rcases hr : st.removeFromProcessing g n with e | st1
  · rw [hr] at h; cases h
  · rw [hr] at h
    have hq1 := qfine_remove hr hq
    simp only at h
    rcases status
    case success =>
      simp only at h
      rcases hm : RS.markSuccess g st1.rs n with e | ⟨l, rs⟩
      · rw [hm] at h; cases h
      · rw [hm] at h
        cases h
        refine qfine_update l _ (qfine_of (st := st1) (fun _ => ⟨rfl, rfl⟩) hq1) ?_
        intro x hx
        have := markSuccess_among hm x hx
        exact ⟨hg.down_mem n hn.1 x this, RS.down_fed hg hn.1 this⟩
    case failed =>
      simp only at h
      split at h
      · split at h
        · cases h
        · cases h
          exact qfine_of (st := st1) (fun _ => ⟨rfl, rfl⟩) hq1
      · cases h
        exact qfine_modQueue ⟨rfl, rfl⟩ (qfine_queueReady hq1 hn)
    all_goals cases h

theorem getNext_sub {q q' : PQueue N K} {r : Option N} (h : q.getNext = .ok (r, q')) :
    (∀ x ∈ q'.rootGen ++ q'.readyQueue, x ∈ q.rootGen ++ q.readyQueue) ∧ ∀ n, r = some n → n ∈ q.rootGen ++ q.readyQueue := by
  unfold PQueue.getNext at h
  split at h
  · split at h
    · split at h
      · cases h
      · next n gen hgen =>
        cases h
        rw [hgen]
        refine ⟨fun x hx => List.mem_cons_of_mem _ hx, ?_⟩
        rintro m hm
        cases hm
        exact List.mem_cons_self
    · split at h
      · cases h
      · next n rest hrest =>
        cases h
        rw [hrest]
        refine ⟨?_, ?_⟩
        · intro x hx
          rcases List.mem_append.1 hx with hx | hx
          · exact List.mem_append_left _ hx
          · exact List.mem_append_right _ (List.mem_cons_of_mem _ hx)
        · rintro m hm
          cases hm
          exact List.mem_append_right _ List.mem_cons_self
  · cases h
    refine ⟨fun x hx => hx, ?_⟩
    intro n hn
    cases hn

theorem qfine_next {t : T} {q : PQueue N K} {r : Option N} (h : (st.queues t).getNext = .ok (r, q)) (hq : QFine g st) :
    QFine g (st.modQueue t (fun _ => q)) := by
  intro x n hn
  rw [modQueue_queues] at hn
  split at hn
  · next hx => exact hq t n ((getNext_sub h).1 n hn)
  · exact hq x n hn

/-- The same answers. -/
def liftChk (chk : Nat → N → Check) (k : Nat) (n : Option N) : Check := n.elim .reject (chk k)

/-- The same result of `acquire_block`. -/
def liftAcq (r : List N × Option N × Sched N T K) : List (Option N) × Option (Option N) × Sched (Option N) (Option T) (Option K) :=
  (r.1.map some, r.2.1.map some, r.2.2.lift)

theorem acquireLoop_lift (hg : g.Loose) (t : T) (chk : Nat → N → Check) : ∀ (fuel : Nat) (k : Nat) (st : Sched N T K)
    (skips : List N), QFine g st → (∀ n ∈ skips, Fine g n) →
    acquireLoop g.fed (some t) fuel (liftChk chk) k st.lift (skips.map some) =
      (acquireLoop g t fuel chk k st skips).map liftAcq ∧
    ∀ sk r st', acquireLoop g t fuel chk k st skips = .ok (sk, r, st') →
      QFine g st' ∧ (∀ n ∈ sk, Fine g n) ∧ ∀ n, r = some n → Fine g n
  | 0, _, _, _, _, _ => ⟨rfl, by intro _ _ _ h; cases h⟩
  | fuel + 1, k, st, skips, hq, hs => by
    unfold acquireLoop
    rw [show st.lift.queues (some t) = (st.queues t).lift from rfl, getNext_lift]
    rcases hn : (st.queues t).getNext with e | ⟨_ | n, q⟩
    · exact ⟨rfl, by intro _ _ _ h; cases h⟩
    · simp only [Except.map, Option.map_none]
      refine ⟨?_, ?_⟩
      · rw [← lift_modQueue t (fun _ => q) (fun _ => q.lift) rfl]
        rfl
      · intro _ _ _ h
        cases h
        exact ⟨qfine_next hn hq, hs, fun n hn => by cases hn⟩
    · have hfn : Fine g n := hq t n ((getNext_sub hn).2 n rfl)
      simp only [Except.map, Option.map_some]
      rw [show liftChk chk k (some n) = chk k n from rfl]
      rw [← lift_modQueue t (fun _ => q) (fun _ => q.lift) rfl, ← lift_modState]
      set st1 := (st.modQueue t (fun _ => q)).modState t
        (fun s => { s with ready := s.ready - 1, processing := s.processing + 1 }) with hst1
      have hq1 : QFine g st1 := qfine_of (st := st.modQueue t (fun _ => q)) (fun _ => ⟨rfl, rfl⟩) (qfine_next hn hq)
      have hm : ∀ (f : TState → TState), (((st1.modState t f).modQueue t
          (fun q => { q with processing := insert (g.key n) q.processing })).lift) =
          ((st1.lift.modState (some t) f).modQueue (some t)
            (fun q => { q with processing := insert (g.fed.key (some n)) q.processing })) := by
        intro f
        rw [lift_modQueue t _ (fun q => { q with processing := insert (g.fed.key (some n)) q.processing }), lift_modState]
        simp [PQueue.lift, Finset.image_insert, DGraph.fed]
      have hqm : ∀ (f : TState → TState), QFine g ((st1.modState t f).modQueue t
          (fun q => { q with processing := insert (g.key n) q.processing })) := by
        intro f
        exact qfine_modQueue ⟨rfl, rfl⟩ (qfine_of (st := st1) (fun _ => ⟨rfl, rfl⟩) hq1)
      by_cases hc : precheck (chk k n) = true
      · rw [if_pos hc, if_pos hc]
        rw [← hm, release_good_lift hg hfn (fun _ _ => n) (fun _ _ => some n)]
        rcases hr : releaseBlock g (fun _ _ => n) ((st1.modState t (fun s => { s with skipped := s.skipped + 1 })).modQueue t
          (fun q => { q with processing := insert (g.key n) q.processing })) n .success with e | st3
        · exact ⟨rfl, by intro _ _ _ h; cases h⟩
        · simp only [Except.map]
          have := acquireLoop_lift hg t chk fuel (k + 1) st3 (skips ++ [n])
            (qfine_release hg hfn hr (hqm _)) (by
              intro x hx
              rcases List.mem_append.1 hx with hx | hx
              · exact hs x hx
              · rw [List.mem_singleton.1 hx]; exact hfn)
          rw [List.map_append] at this
          exact this
      · rw [if_neg hc, if_neg hc]
        refine ⟨?_, ?_⟩
        · rw [← hm]; rfl
        · intro _ _ _ h
          cases h
          refine ⟨hqm _, hs, ?_⟩
          rintro m hm
          cases hm
          exact hfn

/-- With more fuel, a result stays the same; and if the fuel was not enough, more blocks are skipped. -/
theorem acquireLoop_more (t : T) (chk : Nat → N → Check) (more : Nat) : ∀ (fuel : Nat) (k : Nat) (st : Sched N T K)
    (skips : List N),
    acquireLoop g t (fuel + more) chk k st skips = acquireLoop g t fuel chk k st skips ∨
    (acquireLoop g t fuel chk k st skips = .error .outOfFuel ∧
      ∀ r, acquireLoop g t (fuel + more) chk k st skips = .ok r → skips.length + fuel ≤ r.1.length)
  | 0, k, st, skips => by
    refine Or.inr ⟨rfl, ?_⟩
    intro r hr
    have key : ∀ (fuel k : Nat) (st : Sched N T K) (skips : List N) (r : List N × Option N × Sched N T K),
        acquireLoop g t fuel chk k st skips = .ok r → skips.length ≤ r.1.length := by
      intro fuel
      induction fuel with
      | zero => intro _ _ _ _ h; cases h
      | succ fuel ih =>
        intro k st skips r h
        unfold acquireLoop at h
        split at h
        · cases h
        · cases h; exact le_refl _
        · simp only at h
          split at h
          · split at h
            · cases h
            · have := ih _ _ _ _ h
              rw [List.length_append] at this
              omega
          · cases h; exact le_refl _
    exact key _ _ _ _ _ hr
  | fuel + 1, k, st, skips => by
    rw [Nat.succ_add]
    unfold acquireLoop
    rcases hn : (st.queues t).getNext with e | ⟨_ | n, q⟩
    · exact Or.inl rfl
    · exact Or.inl rfl
    · simp only
      by_cases hc : precheck (chk k n) = true
      · rw [if_pos hc, if_pos hc]
        split
        · exact Or.inl rfl
        · next st3 h3 =>
          rcases acquireLoop_more t chk more fuel (k + 1) st3 (skips ++ [n]) with h | ⟨h1, h2⟩
          · exact Or.inl h
          · refine Or.inr ⟨h1, fun r hr => ?_⟩
            have := h2 r hr
            rw [List.length_append, List.length_singleton] at this
            omega
      · rw [if_neg hc, if_neg hc]
        exact Or.inl rfl

end Sched

open Sched

theorem Ev.lift_inj : Function.Injective (Ev.lift (N := N)) := by
  rintro (a | a | a | a) (b | b | b | b) h <;> simp [Ev.lift] at h <;> rw [h]

theorem held_lift {tr : List (Ev N)} {n : N} : Held (tr.map Ev.lift) (some n) ↔ Held tr n := by
  unfold Held
  rw [← show Ev.lift (.good n) = Ev.good (some n) from rfl, ← show Ev.lift (.bad n) = Ev.bad (some n) from rfl,
    ← show Ev.lift (.hand n) = Ev.hand (some n) from rfl]
  simp only [List.count_map_of_injective _ _ Ev.lift_inj]

theorem done_lift {tr : List (Ev N)} {n : N} : Done (tr.map Ev.lift) (some n) ↔ Done tr n := by
  unfold Done
  rw [← show Ev.lift (.good n) = Ev.good (some n) from rfl, ← show Ev.lift (.skip n) = Ev.skip (some n) from rfl,
    List.mem_map_of_injective Ev.lift_inj, List.mem_map_of_injective Ev.lift_inj]

theorem dead_lift {tr : List (Ev N)} {n : N} : Dead g.fed (tr.map Ev.lift) (some n) ↔ Dead g tr n := by
  unfold Dead
  rw [← show Ev.lift (.bad n) = Ev.bad (some n) from rfl, List.mem_map_of_injective Ev.lift_inj,
    List.count_map_of_injective _ _ Ev.lift_inj]
  rfl

theorem none_not {tr : List (Ev N)} : ∀ e ∈ tr.map Ev.lift, e.node ≠ none := by
  intro e he
  obtain ⟨x, _, rfl⟩ := List.mem_map.1 he
  rcases x with a | a | a | a <;> simp [Ev.lift, Ev.node]

/-- An execution is one of the graph with the additional block, in which nobody asks for that block. -/
theorem run_lift (hg : g.Loose) {tr : List (Ev N)} {st : Sched N T K} (h : Run g tr st) :
    Run g.fed (tr.map Ev.lift) st.lift ∧ QFine g st ∧ ∀ e ∈ tr, Fine g e.node := by
  have fine_held : ∀ {tr : List (Ev N)} {n : N}, Held tr n → (∀ e ∈ tr, Fine g e.node) → Fine g n := by
    intro tr n hh he
    have : Ev.hand n ∈ tr := List.count_pos_iff.1 (by unfold Held at hh; omega)
    exact he _ this
  induction h with
  | init =>
    refine ⟨by rw [← lift_init]; exact .init, ?_, by intro e he; cases he⟩
    intro t n hn
    have hqs := (init_totals (g := g) g.tasks (g.rootTasks.foldl (fun st t =>
      (st.modState t (fun s => { s with ready := s.ready + g.numRoots t })).modQueue t
      (fun _ => PQueue.init (g.numRoots t) (g.rootGen t)))
      (⟨RS.init, fun _ => TState.init, fun _ => PQueue.init 0 []⟩ : Sched N T K))).2.1
    have hn' : n ∈ ((Sched.init g).queues t).rootGen ++ ((Sched.init g).queues t).readyQueue := hn
    unfold Sched.init at hn'
    simp only at hn'
    rw [hqs, init_queues _ _ hg.rootTasks_nodup] at hn'
    split at hn'
    · next ht =>
      simp only [PQueue.init, List.append_nil] at hn'
      obtain ⟨h1, h2, _⟩ := (hg.rootGen_mem t ht n).1 hn'
      refine ⟨h1, fun hs => hs.2.2 (by rw [h2]; exact ht)⟩
    · cases hn'
  | @acquire tr st st' skips r chk t hrun hacq ih =>
    obtain ⟨ih1, ih2, ih3⟩ := ih
    unfold acquireBlock at hacq
    obtain ⟨h1, h2⟩ := acquireLoop_lift hg t chk (g.nodes.length + 1) 0 st [] ih2 (by intro n hn; cases hn)
    obtain ⟨h2, h3, h4⟩ := h2 skips r st' hacq
    rw [hacq] at h1
    have h5 : acquireLoop g.fed (some t) (g.nodes.length + 1 + 1) (liftChk chk) 0 st.lift [] =
        .ok (skips.map some, r.map some, st'.lift) := by
      rcases acquireLoop_more (g := g.fed) (some t) (liftChk chk) 1 (g.nodes.length + 1) 0 st.lift [] with h | ⟨h, _⟩
      · rw [h]; exact h1
      · rw [List.map_nil, h] at h1; cases h1
    refine ⟨?_, h2, ?_⟩
    · have hl : g.fed.nodes.length + 1 = g.nodes.length + 1 + 1 := by simp [DGraph.fed]
      have := Run.acquire (liftChk chk) (some t) ih1 (skips := skips.map some) (r := r.map some) (st' := st'.lift) (by
        unfold acquireBlock; rw [hl]; exact h5)
      rw [List.map_append]
      have he : (acquireEvents skips r).map Ev.lift = acquireEvents (skips.map some) (r.map some) := by
        unfold acquireEvents
        rw [List.map_append, List.map_map, List.map_map]
        rcases r with _ | r <;> rfl
      rw [he]
      exact this
    · intro e he
      rcases List.mem_append.1 he with he | he
      · exact ih3 e he
      · unfold acquireEvents at he
        rcases List.mem_append.1 he with he | he
        · obtain ⟨n, hn, rfl⟩ := List.mem_map.1 he
          exact h3 n hn
        · rcases r with _ | r
          · cases he
          · rw [List.mem_singleton.1 he]
            exact h4 r rfl
  | @good tr st st' n pick hrun hh hp hrel ih =>
    obtain ⟨ih1, ih2, ih3⟩ := ih
    have hf := fine_held hh ih3
    refine ⟨?_, qfine_release hg hf hrel ih2, ?_⟩
    · rw [List.map_append]
      exact Run.good (RS.liftPick pick) ih1 (held_lift.2 hh) (RS.liftPick_legal hp) (by rw [release_good_lift hg hf pick, hrel]; rfl)
    · intro e he
      rcases List.mem_append.1 he with he | he
      · exact ih3 e he
      · rw [List.mem_singleton.1 he]; exact hf
  | @bad tr st st' n pick hrun hh hp hrel ih =>
    obtain ⟨ih1, ih2, ih3⟩ := ih
    have hf := fine_held hh ih3
    refine ⟨?_, qfine_release hg hf hrel ih2, ?_⟩
    · rw [List.map_append]
      exact Run.bad (RS.liftPick pick) ih1 (held_lift.2 hh) (RS.liftPick_legal hp) (by rw [release_bad_lift hg hf hp, hrel]; rfl)
    · intro e he
      rcases List.mem_append.1 he with he | he
      · exact ih3 e he
      · rw [List.mem_singleton.1 he]; exact hf

end Verif
