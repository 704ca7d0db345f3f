import Verif.Spec.SerialSpec
import Verif.Proofs.ServerCount
import Verif.Props.StarvedSched

/-! # Invariant of the serial server -/

set_option linter.unusedSectionVars false

namespace Verif

open Spec

variable {N T K : Type} [DecidableEq N] [DecidableEq T] [DecidableEq K] {g : DGraph N T K}
  {served : List T} {σ σ' : Serial N T K} {k : SerTick N T} {ks : List (SerTick N T)}

/-- Every dependent of the block belongs to the same task. -/
def LocalTo (g : DGraph N T K) (x : N) : Prop := ∀ d ∈ g.nodes, x ∈ g.up d → g.task d = g.task x

theorem dead_skips (tr : List (Ev N)) (sk : List N) (n : N) :
    Dead g (tr ++ sk.map .skip) n ↔ Dead g tr n := by
  have h : (sk.map Ev.skip).count (.bad n) = 0 := by
    rw [List.count_eq_zero]
    intro hm
    obtain ⟨x, _, hx⟩ := List.mem_map.1 hm
    cases hx
  unfold Dead
  rw [List.count_append, h]
  simp

theorem done_skips (tr : List (Ev N)) (sk : List N) (n : N) :
    Done (tr ++ sk.map .skip) n ↔ Done tr n ∨ n ∈ sk := by
  unfold Done
  simp
  tauto

/-- Skipping blocks of one task, whose dependents are in the same task, does not make blocks of other
tasks ready. -/
theorem ready_before_skips {tr : List (Ev N)} {sk : List N} {n : N}
    (hn : Ready g (tr ++ sk.map .skip) n) (ht : ∀ x ∈ sk, g.task x ≠ g.task n)
    (hl : ∀ x ∈ sk, LocalTo g x) : Ready g tr n := by
  obtain ⟨h1, h2, h3, h4, h5⟩ := hn
  refine ⟨h1, ?_, fun h => h3 (done_mono h), fun h => h4 (dead_mono h), ?_⟩
  · intro u hu
    rcases (done_skips tr sk u).1 (h2 u hu) with h | h
    · exact h
    · exact absurd (hl u h n h1 hu).symm (ht u h)
  · exact fun h => h5 ((held_skips sk).2 h)

theorem acquireAny_spec (hg : g.Loose) (chk : T → Nat → N → Check) :
    ∀ (ts : List T) {tr : List (Ev N)} {st : Sched N T K}, Run g tr st →
      ∃ skips r st', Serial.acquireAny g chk ts st = .ok (skips, r, st') ∧
        Run g (tr ++ acquireEvents skips r) st' ∧
        (∀ x ∈ skips, g.task x ∈ ts ∧ ∃ i, chk (g.task x) i x = .accept) ∧
        (∀ n, r = some n → Ready g (tr ++ skips.map .skip) n ∧ g.task n ∈ ts ∧
          ∃ i, chk (g.task n) i n ≠ .accept) ∧
        (r = none → (∀ x ∈ skips, LocalTo g x) →
          ∀ n, Ready g (tr ++ skips.map .skip) n → ¬ Starved g n → Ready g tr n ∧ g.task n ∉ ts) := by
  intro ts
  induction ts with
  | nil =>
    intro tr st h
    refine ⟨[], none, st, rfl, by simpa [acquireEvents] using h, by simp, by simp, ?_⟩
    intro _ _ n hn _
    exact ⟨by simpa using hn, by simp⟩
  | cons t ts ih =>
    intro tr st h
    obtain ⟨sk, r, st1, f1, _, f3, f4, f5⟩ := loose_acquire hg h (chk t) t
    have hrun := Run.acquire (chk t) t h f1
    have hsk : ∀ x ∈ sk, g.task x = t ∧ ∃ i, chk (g.task x) i x = .accept := by
      intro x hx
      obtain ⟨i, hi⟩ := List.getElem?_of_mem hx
      obtain ⟨_, a2, a3⟩ := f3 i x hi
      exact ⟨a2, i, by rw [a2]; exact a3⟩
    cases r with
    | some m =>
      refine ⟨sk, some m, st1, ?_, hrun, ?_, ?_, by simp⟩
      · unfold Serial.acquireAny
        rw [f1]
      · intro x hx
        obtain ⟨a1, a2⟩ := hsk x hx
        exact ⟨by rw [a1]; exact List.mem_cons_self, a2⟩
      · intro n hn
        obtain ⟨a1, a2, a3⟩ := f4 n hn
        exact ⟨a1, by rw [a2]; exact List.mem_cons_self, sk.length, by rw [a2]; exact a3⟩
    | none =>
      have e1 : tr ++ acquireEvents sk (none : Option N) = tr ++ sk.map .skip := by
        simp [acquireEvents]
      rw [e1] at hrun
      obtain ⟨sk', r', st2, j1, j2, j3, j4, j5⟩ := ih hrun
      have e2 : ∀ r : Option N, tr ++ acquireEvents (sk ++ sk') r =
          tr ++ sk.map .skip ++ acquireEvents sk' r := by
        intro r
        simp [acquireEvents]
      have e3 : tr ++ (sk ++ sk').map .skip = tr ++ sk.map Ev.skip ++ sk'.map .skip := by simp
      refine ⟨sk ++ sk', r', st2, ?_, by rw [e2]; exact j2, ?_, ?_, ?_⟩
      · unfold Serial.acquireAny
        rw [f1]
        simp only [j1]
      · intro x hx
        rcases List.mem_append.1 hx with hx | hx
        · obtain ⟨a1, a2⟩ := hsk x hx
          exact ⟨by rw [a1]; exact List.mem_cons_self, a2⟩
        · exact ⟨List.mem_cons_of_mem _ (j3 x hx).1, (j3 x hx).2⟩
      · intro n hn
        obtain ⟨a1, a2, a3⟩ := j4 n hn
        exact ⟨by rw [e3]; exact a1, List.mem_cons_of_mem _ a2, a3⟩
      · intro hr hl n hn hns
        rw [e3] at hn
        obtain ⟨b1, b2⟩ := j5 hr (fun x hx => hl x (List.mem_append_right _ hx)) n hn hns
        have hnt : g.task n ≠ t := fun e => hns ((f5 rfl).2 n e b1)
        refine ⟨ready_before_skips b1 ?_ (fun x hx => hl x (List.mem_append_left _ hx)), ?_⟩
        · intro x hx
          rw [(hsk x hx).1]
          exact hnt.symm
        · rw [List.mem_cons, not_or]
          exact ⟨hnt, b2⟩

/-! ### The invariant -/

theorem serEvs_append (a b : List (SerOut N T)) : serEvs (a ++ b) = serEvs a ++ serEvs b :=
  List.filterMap_append

theorem serEvs_skips (sk : List N) : serEvs (sk.map (SerOut.skip (T := T))) = sk.map .skip := by
  induction sk with
  | nil => rfl
  | cons x sk ih => exact congrArg (Ev.skip x :: ·) ih

/-- What holds after every pass. -/
structure SerInv (g : DGraph N T K) (served : List T) (σ : Serial N T K) : Prop where
  run : Run g (serEvs σ.out) σ.sched
  idle : ∀ n, ¬ Held (serEvs σ.out) n
  funcs : ∀ t, t ∈ σ.funcs ↔ t ∈ served ∧ t ∉ σ.finished
  fin : OrphanExact g (serEvs σ.out) → ∀ t ∈ σ.finished, TaskFinished g (serEvs σ.out) t
  finServed : ∀ t ∈ σ.finished, t ∈ served
  marked : ∀ n, n ∈ σ.marked ↔ .bad n ∈ serEvs σ.out
  ended : σ.ended = true → (∀ t ∈ served, t ∈ σ.finished) ∨
    ((∀ x, .skip x ∈ serEvs σ.out → LocalTo g x) → ∀ n, Ready g (serEvs σ.out) n → Starved g n)

theorem SerInv.init (g : DGraph N T K) (served : List T) : SerInv g served (Serial.init g served) :=
  { run := Run.init
    idle := by intro n; simp [Held, Serial.init, serEvs]
    funcs := by intro t; simp [Serial.init]
    fin := by intro _ t ht; simp [Serial.init] at ht
    finServed := by intro t ht; simp [Serial.init] at ht
    marked := by intro n; simp [Serial.init, serEvs]
    ended := by intro h; simp [Serial.init] at h }

/-- The event of a release. -/
def relEv (n : N) (status : BlockStatus) : Ev N := if status = .failed then .bad n else .good n

theorem statusAfter_cases (σ : Serial N T K) (n : N) (p : Proc) :
    σ.statusAfter n p = .failed ∨ σ.statusAfter n p = .success := by
  unfold Serial.statusAfter
  split <;> split <;> simp

/-- What a pass does: it leaves the loop, or it processes one block. -/
structure PassDid (g : DGraph N T K) (served : List T) (k : SerTick N T) (σ : Serial N T K)
    (skips : List N) (n : N) (status : BlockStatus) (σ' : Serial N T K) : Prop where
  notAll : ¬ ((∀ t ∈ σ.finished, t ∈ served) ∧ (∀ t ∈ served, t ∈ σ.finished))
  acquired : ∃ st, Serial.acquireAny g k.chk (σ.sched.getReadyTasks g) σ.sched =
    .ok (skips, some n, st) ∧ st.releaseBlock g k.pick n status = .ok σ'.sched
  result : status = σ.statusAfter n (k.proc n)
  returns : k.proc n ≠ .raises
  func : g.task n ∈ σ.funcs
  marked : σ'.marked = if status = .failed then n :: σ.marked else σ.marked
  out : ∃ s d e, σ'.out = σ.out ++ skips.map .skip ++ s ++
    [.acquired (g.task n), .call n, .release n status, .released (g.task n)] ++ d ++ e ∧
    s = (if g.task n ∈ σ.started then [] else [.taskStart (g.task n)]) ∧
    d = (if (σ'.sched.states (g.task n)).isDone then [.taskDone (g.task n)] else []) ∧
    e = (if σ'.ended then [.exit] else [])
  finished : σ'.finished = if (σ'.sched.states (g.task n)).isDone then
    (if g.task n ∈ σ.finished then σ.finished else σ.finished ++ [g.task n]) else σ.finished
  funcs : σ'.funcs = if (σ'.sched.states (g.task n)).isDone then
    σ.funcs.filter (fun x => x ≠ g.task n) else σ.funcs
  started : σ'.started = if (σ'.sched.states (g.task n)).isDone then
    (if g.task n ∈ σ.started then σ.started else σ.started ++ [g.task n]).filter (fun x => x ≠ g.task n)
    else (if g.task n ∈ σ.started then σ.started else σ.started ++ [g.task n])
  ended : σ.ended = false → (σ'.ended = true ↔ σ'.funcs = [])

/-- A pass that leaves the loop without processing a block. -/
structure PassLeft (g : DGraph N T K) (served : List T) (k : SerTick N T) (σ σ' : Serial N T K)
    (skips : List N) : Prop where
  why : (∀ t ∈ served, t ∈ σ.finished) ∧ skips = [] ∧ σ'.sched = σ.sched ∨
    Serial.acquireAny g k.chk (σ.sched.getReadyTasks g) σ.sched = .ok (skips, none, σ'.sched)
  same : σ'.started = σ.started ∧ σ'.finished = σ.finished ∧ σ'.funcs = σ.funcs ∧
    σ'.marked = σ.marked
  out : σ'.out = σ.out ++ skips.map .skip ++ [.exit]
  ended : σ'.ended = true

theorem finishPass_cases {t : T} (hstarted : t ∈ σ.started) (hfuncs : t ∈ σ.funcs) :
    ∃ σ', σ.finishPass t = .ok σ' ∧ σ'.sched = σ.sched ∧ σ'.marked = σ.marked ∧
      σ'.finished = (if (σ.sched.states t).isDone then
        (if t ∈ σ.finished then σ.finished else σ.finished ++ [t]) else σ.finished) ∧
      σ'.funcs = (if (σ.sched.states t).isDone then σ.funcs.filter (fun x => x ≠ t) else σ.funcs) ∧
      σ'.started = (if (σ.sched.states t).isDone then σ.started.filter (fun x => x ≠ t)
        else σ.started) ∧
      (σ.ended = false → (σ'.ended = true ↔ σ'.funcs = [])) ∧
      (σ.ended = false → σ'.out = σ.out ++ (if (σ.sched.states t).isDone then [.taskDone t] else []) ++
        (if σ'.ended then [.exit] else [])) := by
  unfold Serial.finishPass
  by_cases hd : (σ.sched.states t).isDone
  · simp only [hd, if_true, hstarted, hfuncs]
    by_cases hf : σ.funcs.filter (fun x => x ≠ t) = []
    · simp only [hf, if_true]
      exact ⟨_, rfl, rfl, rfl, rfl, rfl, rfl, by simp [Serial.leave], by
        simp [Serial.leave, Serial.emit]⟩
    · simp only [hf, if_false]
      exact ⟨_, rfl, rfl, rfl, rfl, rfl, rfl, by intro h; simp [Serial.emit, h]; simpa using hf,
        by intro h; simp [Serial.emit, h]⟩
  · simp only [hd, if_false, Bool.false_eq_true]
    by_cases hf : σ.funcs = []
    · rw [hf] at hfuncs; cases hfuncs
    · simp only [hf, if_false]
      exact ⟨_, rfl, rfl, rfl, rfl, rfl, rfl, by intro h; simp [h, hf], by intro h; simp [h]⟩

theorem startTask_eq (σ : Serial N T K) (t : T) : (σ.startTask t).sched = σ.sched ∧
    (σ.startTask t).finished = σ.finished ∧ (σ.startTask t).funcs = σ.funcs ∧
    (σ.startTask t).marked = σ.marked ∧ (σ.startTask t).ended = σ.ended ∧
    (σ.startTask t).started = (if t ∈ σ.started then σ.started else σ.started ++ [t]) ∧
    (σ.startTask t).out = σ.out ++ (if t ∈ σ.started then [] else [.taskStart t]) ∧
    t ∈ (σ.startTask t).started := by
  unfold Serial.startTask
  by_cases h : t ∈ σ.started
  · simp [h]
  · simp [h, Serial.emit]

theorem statusAfter_marked {σ σ' : Serial N T K} (h : σ.marked = σ'.marked) (n : N) (p : Proc) :
    σ.statusAfter n p = σ'.statusAfter n p := by
  unfold Serial.statusAfter
  rw [h]

/-- The second half of a pass succeeds when the task's process function is still there. -/
theorem pass_process (he : σ.ended = false)
    (hna : ¬ ((∀ t ∈ σ.finished, t ∈ served) ∧ (∀ t ∈ served, t ∈ σ.finished)))
    {skips : List N} {n : N} {st st' : Sched N T K}
    (hacq : Serial.acquireAny g k.chk (σ.sched.getReadyTasks g) σ.sched = .ok (skips, some n, st))
    (hf : g.task n ∈ σ.funcs) (hp : k.proc n ≠ .raises)
    (hrel : st.releaseBlock g k.pick n (σ.statusAfter n (k.proc n)) = .ok st') :
    ∃ σ', σ.pass g served k = .ok σ' ∧
      PassDid g served k σ skips n (σ.statusAfter n (k.proc n)) σ' := by
  obtain ⟨σ0, e0⟩ : ∃ x, x = ({ σ.emit (skips.map .skip) with sched := st } : Serial N T K) := ⟨_, rfl⟩
  obtain ⟨s1, s2, s3, s4, s5, s6, s7, s8⟩ := startTask_eq σ0 (g.task n)
  have hm : σ0.marked = σ.marked := by rw [e0]; rfl
  have hst : ((σ0.startTask (g.task n)).emit [.acquired (g.task n)]).statusAfter n (k.proc n) =
      σ.statusAfter n (k.proc n) := statusAfter_marked (by
    change (σ0.startTask (g.task n)).marked = _
    rw [s4, hm]) n _
  obtain ⟨status, hs⟩ : ∃ x, x = σ.statusAfter n (k.proc n) := ⟨_, rfl⟩
  rw [← hs] at hst hrel
  obtain ⟨σ2, e2⟩ : ∃ x, x = (({ (σ0.startTask (g.task n)).emit [.acquired (g.task n), .call n,
      .release n status, .released (g.task n)] with
      sched := st', marked := if status = .failed then n :: (σ0.startTask (g.task n)).marked
        else (σ0.startTask (g.task n)).marked }) : Serial N T K) := ⟨_, rfl⟩
  have g1 : g.task n ∈ σ2.started := by rw [e2]; exact s8
  have g2 : g.task n ∈ σ2.funcs := by
    rw [e2]
    change g.task n ∈ (σ0.startTask (g.task n)).funcs
    rw [s3, e0]
    exact hf
  obtain ⟨σ', f0, f1, f2, f3, f4, f5, f6, f7⟩ := finishPass_cases g1 g2
  have k1 : σ2.sched = st' := by rw [e2]
  have k2 : σ2.marked = if status = .failed then n :: σ.marked else σ.marked := by
    rw [e2]
    change (if status = .failed then n :: (σ0.startTask (g.task n)).marked
      else (σ0.startTask (g.task n)).marked) = _
    rw [s4, hm]
  have k3 : σ2.finished = σ.finished := by
    rw [e2]
    change (σ0.startTask (g.task n)).finished = _
    rw [s2, e0]
    rfl
  have k4 : σ2.funcs = σ.funcs := by
    rw [e2]
    change (σ0.startTask (g.task n)).funcs = _
    rw [s3, e0]
    rfl
  have k5 : σ2.started = if g.task n ∈ σ.started then σ.started else σ.started ++ [g.task n] := by
    rw [e2]
    change (σ0.startTask (g.task n)).started = _
    rw [s6, e0]
    rfl
  have k6 : σ2.ended = false := by
    rw [e2]
    change (σ0.startTask (g.task n)).ended = _
    rw [s5, e0]
    exact he
  have k7 : σ2.out = σ.out ++ skips.map .skip ++
      (if g.task n ∈ σ.started then [] else [.taskStart (g.task n)]) ++
      [.acquired (g.task n), .call n, .release n status, .released (g.task n)] := by
    rw [e2]
    change (σ0.startTask (g.task n)).out ++ _ = _
    rw [s7, e0]
    rfl
  have hpass : σ.pass g served k = σ2.finishPass (g.task n) := by
    unfold Serial.pass
    simp only [if_neg hna, hacq]
    rw [← e0]
    have hfun : g.task n ∈ ((σ0.startTask (g.task n)).emit [.acquired (g.task n)]).funcs := by
      rw [e2] at g2
      exact g2
    simp only [hfun, if_true, hst]
    have hrel' : ((σ0.startTask (g.task n)).emit [.acquired (g.task n)]).sched.releaseBlock g k.pick n
        status = .ok st' := by
      change (σ0.startTask (g.task n)).sched.releaseBlock g k.pick n status = _
      rw [s1, e0]
      exact hrel
    have hrel3 : (((σ0.startTask (g.task n)).emit [.acquired (g.task n)]).emit [.call n]).sched.releaseBlock
        g k.pick n status = .ok st' := hrel'
    rw [hrel3, e2]
    simp only [Serial.emit, List.append_assoc, List.cons_append, List.nil_append]
  refine ⟨σ', by rw [hpass, f0], ?_⟩
  rw [← hs]
  exact {
    notAll := hna
    acquired := ⟨st, hacq, by rw [f1, k1]; exact hrel⟩
    result := hs
    returns := hp
    func := hf
    marked := by rw [f2, k2]
    out := ⟨_, _, _, by rw [f7 k6, k7, f1], rfl, rfl, rfl⟩
    finished := by rw [f3, k3, f1]
    funcs := by rw [f4, k4, f1]
    started := by rw [f5, k5, f1]
    ended := fun _ => f6 k6 }

theorem acquireEvents_some (sk : List N) (n : N) :
    acquireEvents sk (some n) = sk.map .skip ++ [Ev.hand n] := rfl

/-- All outcomes of a pass. -/
theorem pass_cases (hg : g.Loose) (h : SerInv g served σ) (he : σ.ended = false)
    (hpick : LegalPick k.pick) :
    (∃ σ' skips, σ.pass g served k = .ok σ' ∧ PassLeft g served k σ σ' skips) ∨
    ∃ skips n st, Serial.acquireAny g k.chk (σ.sched.getReadyTasks g) σ.sched = .ok (skips, some n, st) ∧
      Ready g (serEvs σ.out ++ skips.map .skip) n ∧
      ((g.task n ∉ σ.funcs ∧ σ.pass g served k = .error .keyError) ∨
        (g.task n ∈ σ.funcs ∧ k.proc n = .raises ∧ σ.pass g served k = .error .userException) ∨
        ∃ σ', σ.pass g served k = .ok σ' ∧
          PassDid g served k σ skips n (σ.statusAfter n (k.proc n)) σ') := by
  by_cases hall : (∀ t ∈ σ.finished, t ∈ served) ∧ (∀ t ∈ served, t ∈ σ.finished)
  · left
    refine ⟨σ.leave, [], ?_, ?_⟩
    · unfold Serial.pass
      simp only [if_pos hall]
    · exact ⟨Or.inl ⟨hall.2, rfl, rfl⟩, ⟨rfl, rfl, rfl, rfl⟩, by simp [Serial.leave], rfl⟩
  · obtain ⟨skips, r, st, f1, f2, f3, f4, f5⟩ := acquireAny_spec hg k.chk (σ.sched.getReadyTasks g) h.run
    cases r with
    | none =>
      left
      refine ⟨({ σ.emit (skips.map .skip) with sched := st } : Serial N T K).leave, skips, ?_, ?_⟩
      · unfold Serial.pass
        simp only [if_neg hall, f1]
      · exact ⟨Or.inr f1, ⟨rfl, rfl, rfl, rfl⟩, rfl, rfl⟩
    | some n =>
      right
      refine ⟨skips, n, st, f1, (f4 n rfl).1, ?_⟩
      obtain ⟨s1, s2, s3, s4, s5, s6, s7, s8⟩ := startTask_eq
        ({ σ.emit (skips.map .skip) with sched := st } : Serial N T K) (g.task n)
      by_cases hf : g.task n ∈ σ.funcs
      · right
        by_cases hp : k.proc n = .raises
        · left
          refine ⟨hf, hp, ?_⟩
          unfold Serial.pass
          simp only [if_neg hall, f1, hp]
          rw [if_pos]
          change g.task n ∈ Serial.funcs (Serial.startTask _ _)
          rw [s3]
          exact hf
        · right
          have hheld : Held (serEvs σ.out ++ acquireEvents skips (some n)) n := by
            have h1 := ((h.run.facts hg).bal n).1
            have h5 : ∀ e : Ev N, (∀ x, e ≠ .skip x) → (skips.map Ev.skip).count e = 0 := by
              intro e he
              rw [List.count_eq_zero]
              intro hm
              obtain ⟨x, _, rfl⟩ := List.mem_map.1 hm
              exact he x rfl
            unfold Held
            rw [acquireEvents_some]
            simp only [List.count_append, h5 (.good n) (by simp), h5 (.bad n) (by simp),
              h5 (.hand n) (by simp)]
            simp
            omega
          have hrel : ∃ st', st.releaseBlock g k.pick n (σ.statusAfter n (k.proc n)) = .ok st' := by
            rcases statusAfter_cases σ n (k.proc n) with e | e <;> rw [e]
            · exact ((C24_loose_partial hg f2).2 _ _ hpick hheld).2
            · exact ((C24_loose_partial hg f2).2 _ _ hpick hheld).1
          obtain ⟨st', hrel⟩ := hrel
          exact pass_process he hall f1 hf hp hrel
      · left
        refine ⟨hf, ?_⟩
        unfold Serial.pass
        simp only [if_neg hall, f1]
        rw [if_neg]
        change ¬ g.task n ∈ Serial.funcs (Serial.startTask _ _)
        rw [s3]
        exact hf

/-- The history after a pass that processed a block. -/
theorem PassDid.evs {skips : List N} {n : N} {status : BlockStatus}
    (h : PassDid g served k σ skips n status σ') :
    serEvs σ'.out = serEvs σ.out ++ acquireEvents skips (some n) ++ [relEv n status] := by
  obtain ⟨s, d, e, h1, h2, h3, h4⟩ := h.out
  have hs : serEvs s = [] := by rw [h2]; split <;> rfl
  have hd : serEvs d = [] := by rw [h3]; split <;> rfl
  have he : serEvs e = [] := by rw [h4]; split <;> rfl
  have hm : serEvs [SerOut.acquired (g.task n), .call n, .release n status, .released (g.task n)] =
      [Ev.hand n, relEv n status] := by
    have := h.result
    rcases statusAfter_cases σ n (k.proc n) with e | e <;> rw [e] at this <;> rw [this] <;> rfl
  rw [h1, serEvs_append, serEvs_append, serEvs_append, serEvs_append, serEvs_append, serEvs_skips, hs,
    hd, he, hm, acquireEvents_some]
  simp

theorem PassLeft.evs {skips : List N} (h : PassLeft g served k σ σ' skips) :
    serEvs σ'.out = serEvs σ.out ++ skips.map .skip := by
  rw [h.out, serEvs_append, serEvs_append, serEvs_skips]
  exact List.append_nil _

theorem skips_bad (sk : List N) (n : N) : Ev.bad n ∉ sk.map Ev.skip := by simp

theorem SerInv.left (hg : g.Loose) (h : SerInv g served σ) {skips : List N}
    (hl : PassLeft g served k σ σ' skips) : SerInv g served σ' := by
  obtain ⟨w1, w2, w3, w4⟩ := hl.same
  have hev := hl.evs
  have hrun : Run g (serEvs σ'.out) σ'.sched := by
    rcases hl.why with ⟨_, h1, h2⟩ | h1
    · rw [hev, h1, h2]; simpa using h.run
    · obtain ⟨sk, r, st, f1, f2, _⟩ := acquireAny_spec hg k.chk (σ.sched.getReadyTasks g) h.run
      rw [f1] at h1
      cases h1
      rw [hev]
      simpa [acquireEvents] using f2
  refine ⟨hrun, ?_, ?_, ?_, ?_, ?_, ?_⟩
  · intro n; rw [hev, held_skips]; exact h.idle n
  · intro t; rw [w2, w3]; exact h.funcs t
  · intro hx t ht
    rw [w2] at ht
    rw [hev] at hx ⊢
    exact finished_mono (h.fin (exact_prefix hx) t ht)
  · intro t; rw [w2]; exact h.finServed t
  · intro n
    rw [w4, h.marked, hev]
    simp
  · intro _
    rcases hl.why with ⟨h0, _⟩ | h1
    · left; rw [w2]; exact h0
    · right
      intro hloc n hn
      obtain ⟨sk, r, st, f1, _, f3, _, f5⟩ := acquireAny_spec hg k.chk (σ.sched.getReadyTasks g) h.run
      rw [f1] at h1
      cases h1
      rw [hev] at hn hloc
      by_contra hns
      obtain ⟨a1, a2⟩ := f5 rfl (fun x hx => hloc x (by simp [hx])) n hn hns
      exact a2 ((C26_loose_ready_tasks hg h.run _).2 ⟨n, rfl, a1, hns⟩)

theorem PassDid.run (hg : g.Loose) (h : SerInv g served σ) (hpick : LegalPick k.pick) {skips : List N} {n : N}
    {status : BlockStatus} (hd : PassDid g served k σ skips n status σ') :
    Ready g (serEvs σ.out ++ skips.map .skip) n ∧ (∀ x ∈ skips, ∃ i, k.chk (g.task x) i x = .accept) ∧
    (∃ i, k.chk (g.task n) i n ≠ .accept) ∧
    Run g (serEvs σ'.out) σ'.sched ∧ ∀ x, ¬ Held (serEvs σ'.out) x := by
  obtain ⟨st, h1, h2⟩ := hd.acquired
  obtain ⟨sk, r, st1, f1, f2, f3, f4, _⟩ := acquireAny_spec hg k.chk (σ.sched.getReadyTasks g) h.run
  rw [f1] at h1
  cases h1
  have hbal : ∀ x, Held (serEvs σ.out ++ acquireEvents skips (some n)) x ↔ x = n := by
    intro x
    have h1 := ((h.run.facts hg).bal x).1
    have h6 := h.idle x
    have h5 : ∀ e : Ev N, (∀ x, e ≠ .skip x) → (skips.map Ev.skip).count e = 0 := by
      intro e he
      rw [List.count_eq_zero]
      intro hm
      obtain ⟨x, _, rfl⟩ := List.mem_map.1 hm
      exact he x rfl
    unfold Held at h6 ⊢
    rw [acquireEvents_some]
    simp only [List.count_append, h5 (.good x) (by simp), h5 (.bad x) (by simp),
      h5 (.hand x) (by simp)]
    by_cases hx : x = n
    · subst hx; simp; omega
    · have : ¬ n = x := fun e => hx e.symm
      simp [hx, this]; omega
  refine ⟨(f4 n rfl).1, fun x hx => (f3 x hx).2, (f4 n rfl).2.2, ?_⟩
  rw [hd.evs]
  have hs := hd.result
  rcases statusAfter_cases σ n (k.proc n) with e | e <;> rw [e] at hs <;> subst hs
  · refine ⟨Run.bad k.pick f2 ((hbal n).2 rfl) hpick h2, ?_⟩
    intro x
    change ¬ Held (_ ++ [Ev.bad n]) x
    rw [loose_held_bad hg f2, hbal]
    tauto
  · refine ⟨Run.good k.pick f2 ((hbal n).2 rfl) hpick h2, ?_⟩
    intro x
    change ¬ Held (_ ++ [Ev.good n]) x
    rw [loose_held_good hg f2, hbal]
    tauto

theorem SerInv.did (hg : g.Loose) (h : SerInv g served σ) (he : σ.ended = false) (hpick : LegalPick k.pick)
    {skips : List N} {n : N} {status : BlockStatus} (hd : PassDid g served k σ skips n status σ') :
    SerInv g served σ' := by
  obtain ⟨_, _, _, hrun, hidle⟩ := hd.run hg h hpick
  have hev := hd.evs
  have hfin : ∀ t, t ∈ σ'.finished ↔
      t ∈ σ.finished ∨ (t = g.task n ∧ (σ'.sched.states (g.task n)).isDone = true) := by
    intro t
    rw [hd.finished]
    by_cases h1 : (σ'.sched.states (g.task n)).isDone
    · rw [if_pos h1]
      split
      · rename_i h2
        constructor
        · exact Or.inl
        · rintro (h3 | ⟨rfl, _⟩)
          · exact h3
          · exact h2
      · simp [h1]
    · rw [if_neg h1]
      simp [h1]
  have hserved : g.task n ∈ served := ((h.funcs _).1 hd.func).1
  have hfuncs : ∀ t, t ∈ σ'.funcs ↔ t ∈ served ∧ t ∉ σ'.finished := by
    intro t
    rw [hfin, hd.funcs]
    by_cases h1 : (σ'.sched.states (g.task n)).isDone
    · rw [if_pos h1, List.mem_filter, h.funcs]
      simp only [h1, and_true, decide_eq_true_eq]
      tauto
    · rw [if_neg h1, h.funcs]
      simp [h1]
  have hserv' : ∀ t ∈ σ'.finished, t ∈ served := by
    intro t ht
    rcases (hfin t).1 ht with h1 | ⟨rfl, _⟩
    · exact h.finServed t h1
    · exact hserved
  refine ⟨hrun, hidle, hfuncs, ?_, hserv', ?_, ?_⟩
  · intro hx t ht
    rcases (hfin t).1 ht with h1 | ⟨rfl, h1⟩
    · have hx' := hx
      rw [hev, List.append_assoc] at hx' ⊢
      exact finished_mono (h.fin (exact_prefix hx') t h1)
    · exact (C22_loose_is_done_partial hg hrun hx _).1 h1
  · intro x
    have hs := hd.result
    rw [hd.marked, hev, acquireEvents_some]
    rcases statusAfter_cases σ n (k.proc n) with e | e <;> rw [e] at hs <;> subst hs
    · simp [relEv, h.marked]; tauto
    · simp [relEv, h.marked]
  · intro h1
    left
    intro t ht
    by_contra hc
    have := (hfuncs t).2 ⟨ht, hc⟩
    rw [(hd.ended he).1 h1] at this
    cases this

theorem SerRun.inv (hg : g.Loose) (h : SerRun g served ks σ) : SerInv g served σ := by
  induction h with
  | init => exact SerInv.init g served
  | @pass ks σ σ' k _ he hpick hp ih =>
    rcases pass_cases hg ih he hpick with ⟨σ1, sk, h1, h2⟩ | ⟨sk, n, st, _, _, h1 | h1 | ⟨σ1, h1, h2⟩⟩
    · rw [h1] at hp; cases hp; exact ih.left hg h2
    · rw [h1.2] at hp; cases hp
    · rw [h1.2.2] at hp; cases hp
    · rw [h1] at hp; cases hp; exact ih.did hg he hpick h2

end Verif
