import Verif.Model.Scheduler
import Verif.Proofs.ReadySurface
import Verif.Proofs.Tight
import Verif.Proofs.Count

/-! # Invariant of the scheduler -/

set_option linter.unusedSectionVars false

namespace Verif

open Spec

variable {N T K : Type}

/-- Sum of `c` over the blocks of task `t`. -/
def csum [DecidableEq T] (g : DGraph N T K) (t : T) (c : N → Nat) : Int :=
  ((g.nodes.map (fun n => if g.task n = t then c n else 0)).sum : Nat)

theorem csum_congr [DecidableEq T] {g : DGraph N T K} {t : T} {c c' : N → Nat}
    (h : ∀ n ∈ g.nodes, c n = c' n) : csum g t c = csum g t c' := by
  unfold csum
  rw [List.map_congr_left (fun n hn => by rw [h n hn])]

theorem csum_zero [DecidableEq T] (g : DGraph N T K) (t : T) : csum g t (fun _ => 0) = 0 := by
  unfold csum
  simp

theorem csum_add [DecidableEq N] [DecidableEq T] {g : DGraph N T K} (hg : g.OK) (t : T) (c : N → Nat)
    (o : Finset N) (ho : ∀ x ∈ o, x ∈ g.nodes) :
    csum g t (fun n => c n + if n ∈ o then 1 else 0) =
      csum g t c + ((o.filter (fun x => g.task x = t)).card : Int) := by
  have h1 : (o.filter (fun x => g.task x = t)) =
      (g.nodes.filter (fun x => decide (x ∈ o ∧ g.task x = t))).toFinset := by
    ext x
    simp only [Finset.mem_filter, List.mem_toFinset, List.mem_filter, decide_eq_true_eq]
    constructor
    · rintro ⟨h, h'⟩; exact ⟨ho x h, h, h'⟩
    · rintro ⟨_, h⟩; exact h
  rw [h1, List.toFinset_card_of_nodup (hg.nodes_nodup.filter _)]
  unfold csum
  rw [← Nat.cast_add]
  congr 1
  clear h1 hg ho
  induction g.nodes with
  | nil => rfl
  | cons x l ih =>
    rw [List.map_cons, List.map_cons, List.sum_cons, List.sum_cons, List.filter_cons, ih]
    by_cases ht : g.task x = t
    · by_cases hx : x ∈ o
      · simp [ht, hx]; omega
      · simp [ht, hx]; omega
    · simp [ht]

/-- What is known about a reachable scheduler state.  Ghosts: `S` succeeded, `F` permanently
failed, `H` held, `Sk` skipped, `fails` number of failed attempts, `c` how often a block was
counted as orphan. -/
structure Sched.Inv [DecidableEq N] [DecidableEq T] (g : DGraph N T K) (st : Sched N T K)
    (S F H Sk : N → Prop) (fails c : N → Nat) : Prop where
  rs : RS.Inv g st.rs S F
  lost : RS.Lost g st.rs S F
  c_le : g.Exact S F → ∀ n ∈ g.nodes, c n ≤ 1
  tight : (∀ m ∈ g.nodes, (g.down m).length ≤ 1) → RS.Tight g st.rs S F
  hNode : ∀ n, H n → n ∈ g.nodes
  hUp : ∀ n, H n → ∀ u ∈ g.up n, S u
  hS : ∀ n, H n → ¬ S n
  hF : ∀ n, H n → ¬ F n
  sk : ∀ n, Sk n → S n ∨ H n
  q_nodup : ∀ t, ((st.queues t).rootGen ++ (st.queues t).readyQueue).Nodup
  q_mem : ∀ t n, n ∈ (st.queues t).rootGen ++ (st.queues t).readyQueue ↔
    n ∈ g.nodes ∧ g.task n = t ∧ (∀ u ∈ g.up n, S u) ∧ ¬ S n ∧ ¬ F n ∧ ¬ H n
  roots : ∀ t, (st.queues t).readyRoots = (st.queues t).rootGen.length
  proc : ∀ t k, k ∈ (st.queues t).processing ↔ ∃ n, H n ∧ g.task n = t ∧ g.key n = k
  ready : ∀ t, (st.states t).ready = (st.queues t).rootGen.length + (st.queues t).readyQueue.length
  processing : ∀ t, (st.states t).processing = cnt g t H
  completed : ∀ t, (st.states t).completed = cnt g t S
  skipped : ∀ t, (st.states t).skipped = cnt g t Sk
  failed : ∀ t, (st.states t).failed = cnt g t F
  total : ∀ t, (st.states t).total = cnt g t (fun _ => True)
  orphaned : ∀ t, (st.states t).orphaned = csum g t c
  c_pos : ∀ n ∈ g.nodes, 0 < c n ↔ g.Below F n
  retries : ∀ n ∈ g.nodes, ¬ F n → (st.queues (g.task n)).retries (g.key n) = fails n
  fails_le : ∀ n ∈ g.nodes, ¬ F n → fails n = 0 ∨ (fails n : Int) ≤ g.maxRetries (g.task n)
  fails_dead : ∀ n, F n → 0 < fails n ∧ g.maxRetries (g.task n) < fails n
  c_up : ∀ n ∈ g.nodes, c n ≤ cntAll g (fun f => F f ∧ Anc g f n)

namespace Sched

variable [DecidableEq N] [DecidableEq T] {g : DGraph N T K}

@[simp] theorem modState_rs (st : Sched N T K) (t : T) (f : TState → TState) :
    (st.modState t f).rs = st.rs := rfl
@[simp] theorem modState_queues (st : Sched N T K) (t : T) (f : TState → TState) :
    (st.modState t f).queues = st.queues := rfl
@[simp] theorem modQueue_rs (st : Sched N T K) (t : T) (f : PQueue N K → PQueue N K) :
    (st.modQueue t f).rs = st.rs := rfl
@[simp] theorem modQueue_states (st : Sched N T K) (t : T) (f : PQueue N K → PQueue N K) :
    (st.modQueue t f).states = st.states := rfl
theorem modState_states (st : Sched N T K) (t : T) (f : TState → TState) (t' : T) :
    (st.modState t f).states t' = if t' = t then f (st.states t) else st.states t' := rfl
theorem modQueue_queues (st : Sched N T K) (t : T) (f : PQueue N K → PQueue N K) (t' : T) :
    (st.modQueue t f).queues t' = if t' = t then f (st.queues t) else st.queues t' := rfl

/-! ### The initial state -/

theorem init_queues (l : List T) (st : Sched N T K) (hl : l.Nodup) (t : T) :
    (l.foldl (fun st t => (st.modState t (fun s => { s with ready := s.ready + g.numRoots t })).modQueue t
      (fun _ => PQueue.init (g.numRoots t) (g.rootGen t))) st).queues t =
    if t ∈ l then PQueue.init (g.numRoots t) (g.rootGen t) else st.queues t := by
  induction l generalizing st with
  | nil => simp
  | cons x l ih =>
    obtain ⟨hx, hl'⟩ := List.nodup_cons.1 hl
    rw [List.foldl_cons, ih _ hl', modQueue_queues]
    by_cases h1 : t ∈ l
    · simp [h1]
    · by_cases h2 : t = x
      · subst h2; simp [h1]
      · simp [h1, h2]

theorem init_states (l : List T) (st : Sched N T K) (hl : l.Nodup) (t : T) :
    (l.foldl (fun st t => (st.modState t (fun s => { s with ready := s.ready + g.numRoots t })).modQueue t
      (fun _ => PQueue.init (g.numRoots t) (g.rootGen t))) st).states t =
    if t ∈ l then { st.states t with ready := (st.states t).ready + g.numRoots t } else st.states t := by
  induction l generalizing st with
  | nil => simp
  | cons x l ih =>
    obtain ⟨hx, hl'⟩ := List.nodup_cons.1 hl
    rw [List.foldl_cons, ih _ hl', modQueue_states, modState_states]
    by_cases h2 : t = x
    · subst h2; simp [hx]
    · simp [h2]

theorem init_rs (l : List T) (st : Sched N T K) :
    (l.foldl (fun st t => (st.modState t (fun s => { s with ready := s.ready + g.numRoots t })).modQueue t
      (fun _ => PQueue.init (g.numRoots t) (g.rootGen t))) st).rs = st.rs := by
  induction l generalizing st with
  | nil => rfl
  | cons x l ih => rw [List.foldl_cons, ih]; rfl

theorem init_totals (l : List T) (st : Sched N T K) :
    let st' := l.foldl (fun st t => st.modState t (fun s => { s with total := g.total t })) st
    st'.rs = st.rs ∧ st'.queues = st.queues ∧
      ∀ t, st'.states t = if t ∈ l then { st.states t with total := g.total t } else st.states t := by
  induction l generalizing st with
  | nil => simp
  | cons x l ih =>
    simp only [List.foldl_cons]
    obtain ⟨h1, h2, h3⟩ := ih (st.modState x (fun s => { s with total := g.total x }))
    refine ⟨h1, h2, fun t => ?_⟩
    rw [h3, modState_states]
    by_cases hx : t = x
    · subst hx; simp
    · simp [hx]

theorem Inv.init (hg : g.OK) : Inv g (Sched.init g) (fun _ => False) (fun _ => False)
    (fun _ => False) (fun _ => False) (fun _ => 0) (fun _ => 0) := by
  unfold Sched.init
  set st0 : Sched N T K := ⟨RS.init, fun _ => TState.init, fun _ => PQueue.init 0 []⟩ with hst0
  have hq := fun t => init_queues (g := g) g.rootTasks st0 hg.rootTasks_nodup t
  have hs := fun t => init_states (g := g) g.rootTasks st0 hg.rootTasks_nodup t
  have hr := init_rs (g := g) g.rootTasks st0
  set st1 := g.rootTasks.foldl (fun st t =>
    (st.modState t (fun s => { s with ready := s.ready + g.numRoots t })).modQueue t
      (fun _ => PQueue.init (g.numRoots t) (g.rootGen t))) st0 with hst1
  obtain ⟨t1, t2, t3⟩ := init_totals (g := g) g.tasks st1
  simp only at t1 t2 t3 ⊢
  set st2 := g.tasks.foldl (fun st t => st.modState t (fun s => { s with total := g.total t })) st1
  have hq2 : ∀ t, st2.queues t = if t ∈ g.rootTasks then PQueue.init (g.numRoots t) (g.rootGen t)
      else PQueue.init 0 [] := by
    intro t; rw [t2]; exact hq t
  have hready : ∀ t, (st2.states t).ready = if t ∈ g.rootTasks then g.numRoots t else 0 := by
    intro t
    rw [t3]
    have : (st1.states t).ready = if t ∈ g.rootTasks then g.numRoots t else 0 := by
      rw [hs]
      split
      · change (0 : Int) + _ = _; ring
      · rfl
    split
    · exact this
    · exact this
  have hother : ∀ t, (st2.states t).processing = 0 ∧ (st2.states t).completed = 0 ∧
      (st2.states t).skipped = 0 ∧ (st2.states t).failed = 0 ∧ (st2.states t).orphaned = 0 := by
    intro t
    have : (st1.states t).processing = 0 ∧ (st1.states t).completed = 0 ∧
      (st1.states t).skipped = 0 ∧ (st1.states t).failed = 0 ∧ (st1.states t).orphaned = 0 := by
      rw [hs]
      split <;> exact ⟨rfl, rfl, rfl, rfl, rfl⟩
    rw [t3]
    split <;> exact this
  have hup : ∀ n : N, (∀ u ∈ g.up n, False) ↔ g.up n = [] := by
    intro n
    rw [List.eq_nil_iff_forall_not_mem]
  refine ⟨?_, ?_, ?_, ?_, ?_, ?_, ?_, ?_, ?_, ?_, ?_, ?_, ?_, ?_, ?_, ?_, ?_, ?_, ?_, ?_, ?_, ?_, ?_, ?_,
    fun _ _ => Nat.zero_le _⟩
  · rw [t1, hr]; exact RS.Inv.init
  · rintro m _ ⟨f, hf, _⟩; exact hf.elim
  · intro n _ _; exact Nat.zero_le 1
  · intro _ u hu; rw [t1, hr] at hu; exact absurd hu (Finset.notMem_empty u)
  · exact fun _ h => h.elim
  · exact fun _ h => h.elim
  · exact fun _ h => h.elim
  · exact fun _ h => h.elim
  · exact fun _ h => h.elim
  · intro t
    rw [hq2]
    split
    · rename_i ht
      simpa [PQueue.init] using hg.rootGen_nodup t ht
    · simp [PQueue.init]
  · intro t n
    rw [hq2, hup]
    split
    · rename_i ht
      simp only [PQueue.init, List.append_nil]
      rw [hg.rootGen_mem t ht]
      simp
    · rename_i ht
      simp only [PQueue.init, List.append_nil]
      constructor
      · intro h; exact absurd h List.not_mem_nil
      · rintro ⟨h1, rfl, h3, _⟩
        exact absurd h3 (hg.other_tasks n h1 ht)
  · intro t
    rw [hq2]
    split
    · rename_i ht
      exact hg.numRoots_eq t ht
    · rfl
  · intro t k
    rw [hq2]
    split <;> simp [PQueue.init]
  · intro t
    rw [hq2, hready]
    split
    · rename_i ht
      simp [PQueue.init, hg.numRoots_eq t ht]
    · simp [PQueue.init]
  · intro t; rw [(hother t).1, cnt_false]
  · intro t; rw [(hother t).2.1, cnt_false]
  · intro t; rw [(hother t).2.2.1, cnt_false]
  · intro t; rw [(hother t).2.2.2.1, cnt_false]
  · intro t
    rw [t3]
    by_cases ht : t ∈ g.tasks
    · rw [if_pos ht]
      obtain ⟨l, h1, h2, h3⟩ := hg.total_eq t ht
      rw [cnt_eq_length hg t _ h1 (by simpa using h2)]
      exact h3
    · rw [if_neg ht]
      have : (st1.states t).total = 0 := by
        rw [hs]; split <;> rfl
      rw [this]
      symm
      rw [cnt_eq_zero]
      intro n hn hnt
      exact absurd (hnt ▸ hg.task_mem n hn) ht
  · intro t; rw [(hother t).2.2.2.2, csum_zero]
  · intro n _
    constructor
    · intro h; exact absurd h (lt_irrefl _)
    · rintro ⟨f, h, _⟩; exact h.elim
  · intro n _ _
    rw [hq2]
    split <;> rfl
  · intro n _ _; exact Or.inl rfl
  · exact fun _ h => h.elim

/-! ### Popping a block -/

/-- A queue entry leaves the queue of its task. -/
theorem getNext_spec {st : Sched N T K} {S F H Sk : N → Prop} {fails c : N → Nat}
    (hi : Inv g st S F H Sk fails c) (t : T) :
    ((st.queues t).getNext = .ok (none, st.queues t) ∧ (st.states t).ready = 0 ∧
      (st.queues t).rootGen = [] ∧ (st.queues t).readyQueue = []) ∨
    ∃ n q, (st.queues t).getNext = .ok (some n, q) ∧
      (st.queues t).rootGen ++ (st.queues t).readyQueue = n :: (q.rootGen ++ q.readyQueue) ∧
      q.processing = (st.queues t).processing ∧ q.retries = (st.queues t).retries ∧
      q.readyRoots = q.rootGen.length ∧
      (st.states t).ready - 1 = q.rootGen.length + q.readyQueue.length := by
  have hr := hi.roots t
  have hrd := hi.ready t
  unfold PQueue.getNext PQueue.numReady
  rcases h1 : (st.queues t).rootGen with _ | ⟨n, gen⟩
  · rw [h1] at hr hrd
    simp only [List.length_nil] at hr hrd
    rcases h2 : (st.queues t).readyQueue with _ | ⟨n, rest⟩
    · left
      rw [h2] at hrd
      simp only [hr, List.length_nil] at hrd ⊢
      refine ⟨by simp, by simpa using hrd, trivial, trivial⟩
    · right
      rw [h2] at hrd
      refine ⟨n, { st.queues t with readyQueue := rest }, ?_, ?_, rfl, rfl, ?_, ?_⟩
      · simp only [hr, List.length_cons]
        rw [if_pos (by omega), if_neg (by omega), h1]
      · simp [h1]
      · simp [h1, hr]
      · simp only [h1, List.length_nil, List.length_cons] at hrd ⊢
        omega
  · rw [h1] at hr hrd
    simp only [List.length_cons] at hr hrd
    right
    refine ⟨n, { st.queues t with readyRoots := (st.queues t).readyRoots - 1, rootGen := gen }, ?_,
      ?_, rfl, rfl, ?_, ?_⟩
    · rw [if_pos (by omega), if_pos (by omega)]
    · simp
    · simp only [hr]; omega
    · simp only; omega

theorem pop_spec [DecidableEq K] (hg : g.OK) {st : Sched N T K} {S F H Sk : N → Prop}
    {fails c : N → Nat} (hi : Inv g st S F H Sk fails c) {t : T} {n : N} {q : PQueue N K}
    (hq1 : (st.queues t).rootGen ++ (st.queues t).readyQueue = n :: (q.rootGen ++ q.readyQueue))
    (hq2 : q.processing = (st.queues t).processing) (hq3 : q.retries = (st.queues t).retries)
    (hq4 : q.readyRoots = q.rootGen.length)
    (hq5 : (st.states t).ready - 1 = q.rootGen.length + q.readyQueue.length) {st' : Sched N T K}
    (hrs : st'.rs = st.rs)
    (hqs : ∀ t', st'.queues t' = if t' = t then { q with processing := insert (g.key n) q.processing }
      else st.queues t')
    {Sk' : N → Prop} (hsk : ∀ x, Sk' x → Sk x ∨ x = n)
    (hst : ∀ t', (st'.states t').ready = (st.states t').ready - (if t' = t then 1 else 0) ∧
      (st'.states t').processing = (st.states t').processing + (if t' = t then 1 else 0) ∧
      (st'.states t').completed = (st.states t').completed ∧
      (st'.states t').failed = (st.states t').failed ∧
      (st'.states t').orphaned = (st.states t').orphaned ∧
      (st'.states t').total = (st.states t').total ∧
      (st'.states t').skipped = cnt g t' Sk') :
    Inv g st' S F (fun x => H x ∨ x = n) Sk' fails c := by
  have hn := (hi.q_mem t n).1 (by rw [hq1]; exact List.mem_cons_self)
  obtain ⟨hn1, hn2, hn3, hn4, hn5, hn6⟩ := hn
  have hnd := hi.q_nodup t
  rw [hq1] at hnd
  obtain ⟨hnot, hnd'⟩ := List.nodup_cons.1 hnd
  refine ⟨by rw [hrs]; exact hi.rs, by rw [hrs]; exact hi.lost, hi.c_le,
    by rw [hrs]; exact hi.tight, ?_, ?_, ?_, ?_, ?_, ?_, ?_, ?_, ?_, ?_, ?_, ?_, ?_, ?_, ?_, ?_,
    hi.c_pos, ?_, hi.fails_le, hi.fails_dead, hi.c_up⟩
  · rintro x (h | rfl)
    · exact hi.hNode x h
    · exact hn1
  · rintro x (h | rfl)
    · exact hi.hUp x h
    · exact hn3
  · rintro x (h | rfl)
    · exact hi.hS x h
    · exact hn4
  · rintro x (h | rfl)
    · exact hi.hF x h
    · exact hn5
  · intro x hx
    rcases hsk x hx with h | h
    · exact (hi.sk x h).imp id Or.inl
    · exact Or.inr (Or.inr h)
  · intro t'
    rw [hqs]
    by_cases ht : t' = t
    · simpa [ht] using hnd'
    · simpa [ht] using hi.q_nodup t'
  · intro t' x
    rw [hqs]
    by_cases ht : t' = t
    · subst ht
      have := hi.q_mem t' x
      rw [hq1, List.mem_cons] at this
      simp only [if_true]
      constructor
      · intro hx
        obtain ⟨a1, a2, a3, a4, a5, a6⟩ := this.1 (Or.inr hx)
        refine ⟨a1, a2, a3, a4, a5, ?_⟩
        rintro (h | rfl)
        · exact a6 h
        · exact hnot hx
      · rintro ⟨a1, a2, a3, a4, a5, a6⟩
        rw [not_or] at a6
        rcases this.2 ⟨a1, a2, a3, a4, a5, a6.1⟩ with h | h
        · exact absurd h a6.2
        · exact h
    · simp only [ht, if_false]
      rw [hi.q_mem]
      constructor
      · rintro ⟨a1, a2, a3, a4, a5, a6⟩
        refine ⟨a1, a2, a3, a4, a5, ?_⟩
        rintro (h | rfl)
        · exact a6 h
        · exact ht (a2.symm.trans hn2)
      · rintro ⟨a1, a2, a3, a4, a5, a6⟩
        exact ⟨a1, a2, a3, a4, a5, fun h => a6 (Or.inl h)⟩
  · intro t'
    rw [hqs]
    by_cases ht : t' = t
    · simpa [ht] using hq4
    · simpa [ht] using hi.roots t'
  · intro t' k
    rw [hqs]
    by_cases ht : t' = t
    · subst ht
      simp only [if_true, Finset.mem_insert, hq2, hi.proc]
      constructor
      · rintro (rfl | ⟨x, h1, h2, h3⟩)
        · exact ⟨n, Or.inr rfl, hn2, rfl⟩
        · exact ⟨x, Or.inl h1, h2, h3⟩
      · rintro ⟨x, h1 | rfl, h2, h3⟩
        · exact Or.inr ⟨x, h1, h2, h3⟩
        · exact Or.inl h3.symm
    · simp only [ht, if_false, hi.proc]
      constructor
      · rintro ⟨x, h1, h2⟩
        exact ⟨x, Or.inl h1, h2⟩
      · rintro ⟨x, h1 | rfl, h2, h3⟩
        · exact ⟨x, h1, h2, h3⟩
        · exact absurd (h2.symm.trans hn2) ht
  · intro t'
    rw [(hst t').1, hqs]
    by_cases ht : t' = t
    · subst ht
      simpa using hq5
    · simpa [ht] using hi.ready t'
  · intro t'
    rw [(hst t').2.1, cnt_insert hg t' H hn1 hn6, hi.processing, hn2]
  · intro t'; rw [(hst t').2.2.1]; exact hi.completed t'
  · intro t'; exact (hst t').2.2.2.2.2.2
  · intro t'; rw [(hst t').2.2.2.1]; exact hi.failed t'
  · intro t'; rw [(hst t').2.2.2.2.2.1]; exact hi.total t'
  · intro t'; rw [(hst t').2.2.2.2.1]; exact hi.orphaned t'
  · intro x hx hxf
    rw [hqs]
    have := hi.retries x hx hxf
    by_cases ht : g.task x = t
    · simp only [ht, if_true, hq3]
      rw [ht] at this
      exact this
    · simpa [ht] using this

/-! ### Releasing a block -/

theorem removeFromProcessing_spec [DecidableEq K] {st : Sched N T K} {S F H Sk : N → Prop}
    {fails c : N → Nat} (hi : Inv g st S F H Sk fails c) {n : N} (hn : H n) :
    st.removeFromProcessing g n = .ok ((st.modQueue (g.task n)
      (fun q => { q with processing := q.processing.erase (g.key n) })).modState
      (g.task n) (fun s => { s with processing := s.processing - 1 })) := by
  unfold removeFromProcessing
  rw [if_pos ((hi.proc _ _).2 ⟨n, hn, rfl, rfl⟩)]

theorem updateReadyQueue_spec (ns : List N) : ∀ st : Sched N T K,
    (st.updateReadyQueue g ns).rs = st.rs ∧
    (∀ t, (st.updateReadyQueue g ns).queues t = { st.queues t with
      readyQueue := (st.queues t).readyQueue ++ ns.filter (fun x => g.task x = t) }) ∧
    ∀ t, (st.updateReadyQueue g ns).states t = { st.states t with
      ready := (st.states t).ready + ((ns.filter (fun x => g.task x = t)).length : Int) } := by
  induction ns with
  | nil => intro st; simp [updateReadyQueue]
  | cons n ns ih =>
    intro st
    obtain ⟨h1, h2, h3⟩ := ih (st.queueReadyBlock g n)
    have e : st.updateReadyQueue g (n :: ns) = (st.queueReadyBlock g n).updateReadyQueue g ns := rfl
    rw [e]
    refine ⟨h1, fun t => ?_, fun t => ?_⟩
    · rw [h2]
      by_cases ht : t = g.task n
      · subst ht
        simp [queueReadyBlock, modQueue_queues]
      · have ht' : ¬ g.task n = t := fun h => ht h.symm
        simp [queueReadyBlock, modQueue_queues, ht, ht']
    · rw [h3]
      by_cases ht : t = g.task n
      · subst ht
        simp [queueReadyBlock, modState_states]
        omega
      · have ht' : ¬ g.task n = t := fun h => ht h.symm
        simp [queueReadyBlock, modState_states, ht, ht']

theorem proc_remove [DecidableEq K] (hg : g.OK) {st : Sched N T K} {S F H Sk : N → Prop}
    {fails c : N → Nat} (hi : Inv g st S F H Sk fails c) {n : N} (hn : H n) (t : T) (k : K) :
    k ∈ (if t = g.task n then (st.queues t).processing.erase (g.key n)
      else (st.queues t).processing) ↔ ∃ x, (H x ∧ x ≠ n) ∧ g.task x = t ∧ g.key x = k := by
  by_cases ht : t = g.task n
  · rw [if_pos ht, Finset.mem_erase, hi.proc]
    constructor
    · rintro ⟨h1, x, h2, h3, h4⟩
      refine ⟨x, ⟨h2, ?_⟩, h3, h4⟩
      rintro rfl
      exact h1 h4.symm
    · rintro ⟨x, ⟨h1, h2⟩, h3, h4⟩
      refine ⟨?_, x, h1, h3, h4⟩
      intro h5
      exact h2 (hg.key_inj x (hi.hNode x h1) n (hi.hNode n hn) (h4.trans h5))
  · rw [if_neg ht, hi.proc]
    constructor
    · rintro ⟨x, h2, h3, h4⟩
      refine ⟨x, ⟨h2, ?_⟩, h3, h4⟩
      rintro rfl
      exact ht h3.symm
    · rintro ⟨x, ⟨h1, h2⟩, h3, h4⟩
      exact ⟨x, h1, h3, h4⟩

/-- Releasing a held block with SUCCESS. -/
theorem release_good [DecidableEq K] (hg : g.OK) {st : Sched N T K} {S F H Sk : N → Prop}
    {fails c : N → Nat} (hi : Inv g st S F H Sk fails c) {n : N} (hn : H n)
    (pick : Nat → Finset N → N) :
    ∃ st', st.releaseBlock g pick n .success = .ok st' ∧
      Inv g st' (fun x => S x ∨ x = n) F (fun x => H x ∧ x ≠ n) Sk fails c := by
  have hnn := hi.hNode n hn
  have hnup := hi.hUp n hn
  have hns := hi.hS n hn
  have hnf := hi.hF n hn
  obtain ⟨ready, rs', e1, e2, elost, e3, e4⟩ := RS.markSuccess_spec hg hi.rs hi.lost hnn hnup hns hnf
  unfold releaseBlock
  rw [removeFromProcessing_spec hi hn]
  simp only [modState_rs, modQueue_rs, e1]
  refine ⟨_, rfl, ?_⟩
  obtain ⟨u1, u2, u3⟩ := updateReadyQueue_spec (g := g) ready
    (({ ((st.modQueue (g.task n) (fun q => { q with processing := q.processing.erase (g.key n) })).modState
      (g.task n) (fun s => { s with processing := s.processing - 1 })) with rs := rs' } : Sched N T K).modState
      (g.task n) (fun s => { s with completed := s.completed + 1 }))
  generalize Sched.updateReadyQueue g _ ready = st' at u1 u2 u3
  simp only [modState_rs, modState_queues, modState_states, modQueue_queues, modQueue_states] at u1 u2 u3
  have fresh : ∀ m ∈ ready, m ∈ g.nodes ∧ (∀ u ∈ g.up m, S u ∨ u = n) ∧ ¬ S m ∧ m ≠ n ∧ ¬ F m ∧ ¬ H m ∧
      ∀ t, m ∉ (st.queues t).rootGen ++ (st.queues t).readyQueue := by
    intro m hm
    obtain ⟨h1, h2, h3⟩ := (e4 m).1 hm
    refine ⟨h1, h3, ?_, ?_, ?_, ?_, ?_⟩
    · intro h; exact hns (hi.rs.sUp m h n h2)
    · rintro rfl; exact hg.not_up_self h1 h2
    · intro h; exact hns (hi.rs.fUp m h n h2)
    · intro h; exact hns (hi.hUp m h n h2)
    · intro t h
      exact hns (((hi.q_mem t m).1 h).2.2.1 n h2)
  have hq : ∀ t, (st'.queues t).rootGen = (st.queues t).rootGen ∧
      (st'.queues t).readyQueue = (st.queues t).readyQueue ++ ready.filter (fun x => g.task x = t) ∧
      (st'.queues t).readyRoots = (st.queues t).readyRoots ∧
      (st'.queues t).retries = (st.queues t).retries ∧
      (st'.queues t).processing = if t = g.task n then (st.queues t).processing.erase (g.key n)
        else (st.queues t).processing := by
    intro t
    rw [u2]
    by_cases ht : t = g.task n
    · subst ht; simp
    · simp [ht]
  refine ⟨by rw [u1]; exact e2, by rw [u1]; exact elost,
    fun h => hi.c_le (h.mono (fun _ => Or.inl) fun _ => id), by
      rw [u1]; exact fun h => RS.markSuccess_tight hg h hi.rs (hi.tight h) hnn hnup hns hnf e1,
    ?_, ?_, ?_, ?_, ?_, ?_, ?_, ?_, ?_, ?_, ?_, ?_, ?_, ?_, ?_, ?_,
    hi.c_pos, ?_, hi.fails_le, hi.fails_dead, hi.c_up⟩
  · rintro x ⟨h, _⟩; exact hi.hNode x h
  · rintro x ⟨h, _⟩ u hu; exact Or.inl (hi.hUp x h u hu)
  · rintro x ⟨h, h'⟩ (h1 | h1)
    · exact hi.hS x h h1
    · exact h' h1
  · rintro x ⟨h, _⟩; exact hi.hF x h
  · intro x hx
    rcases hi.sk x hx with h | h
    · exact Or.inl (Or.inl h)
    · by_cases hxn : x = n
      · exact Or.inl (Or.inr hxn)
      · exact Or.inr ⟨h, hxn⟩
  · intro t
    rw [(hq t).1, (hq t).2.1, ← List.append_assoc]
    refine List.Nodup.append (hi.q_nodup t) (e3.filter _) ?_
    intro x h1 h2
    exact (fresh x (List.mem_filter.1 h2).1).2.2.2.2.2.2 t h1
  · intro t x
    rw [(hq t).1, (hq t).2.1, ← List.append_assoc, List.mem_append, hi.q_mem, List.mem_filter,
      decide_eq_true_eq]
    constructor
    · rintro (⟨a1, a2, a3, a4, a5, a6⟩ | ⟨a1, a2⟩)
      · refine ⟨a1, a2, fun u hu => Or.inl (a3 u hu), ?_, a5, fun h => a6 h.1⟩
        rintro (h | rfl)
        · exact a4 h
        · exact a6 hn
      · obtain ⟨b1, b2, b3, b4, b5, b6, _⟩ := fresh x a1
        refine ⟨b1, a2, b2, ?_, b5, fun h => b6 h.1⟩
        rintro (h | h)
        · exact b3 h
        · exact b4 h
    · rintro ⟨a1, a2, a3, a4, a5, a6⟩
      rw [not_or] at a4
      by_cases hnx : n ∈ g.up x
      · right
        exact ⟨(e4 x).2 ⟨a1, hnx, a3⟩, a2⟩
      · left
        refine ⟨a1, a2, ?_, a4.1, a5, fun h => a6 ⟨h, a4.2⟩⟩
        intro u hu
        rcases a3 u hu with h | rfl
        · exact h
        · exact absurd hu hnx
  · intro t; rw [(hq t).1, (hq t).2.2.1]; exact hi.roots t
  · intro t k
    rw [(hq t).2.2.2.2]
    exact proc_remove hg hi hn t k
  · intro t
    rw [(hq t).1, (hq t).2.1, u3, List.length_append]
    have := hi.ready t
    by_cases ht : t = g.task n
    · subst ht; simp; omega
    · simp [ht]; omega
  · intro t
    rw [u3, cnt_remove hg t H hnn hn, ← hi.processing]
    by_cases ht : t = g.task n
    · subst ht; simp
    · simp [ht]
  · intro t
    rw [u3, cnt_insert hg t S hnn hns, ← hi.completed]
    by_cases ht : t = g.task n
    · subst ht; simp
    · simp [ht]
  · intro t
    rw [u3, ← hi.skipped]
    by_cases ht : t = g.task n
    · subst ht; simp
    · simp [ht]
  · intro t
    rw [u3, ← hi.failed]
    by_cases ht : t = g.task n
    · subst ht; simp
    · simp [ht]
  · intro t
    rw [u3, ← hi.total]
    by_cases ht : t = g.task n
    · subst ht; simp
    · simp [ht]
  · intro t
    rw [u3, ← hi.orphaned]
    by_cases ht : t = g.task n
    · subst ht; simp
    · simp [ht]
  · intro x hx hxf
    rw [(hq _).2.2.2.1]
    exact hi.retries x hx hxf

/-- Releasing a held block with FAILED while it has retries left. -/
theorem release_retry [DecidableEq K] (hg : g.OK) {st : Sched N T K} {S F H Sk : N → Prop}
    {fails c : N → Nat} (hi : Inv g st S F H Sk fails c) {n : N} (hn : H n) (hskn : ¬ Sk n)
    (hmax : (fails n : Int) < g.maxRetries (g.task n)) (pick : Nat → Finset N → N) :
    ∃ st', st.releaseBlock g pick n .failed = .ok st' ∧
      Inv g st' S F (fun x => H x ∧ x ≠ n) Sk (upd fails n (fails n + 1)) c := by
  have hnn := hi.hNode n hn
  have hnup := hi.hUp n hn
  have hns := hi.hS n hn
  have hnf := hi.hF n hn
  have hret := hi.retries n hnn hnf
  unfold releaseBlock
  rw [removeFromProcessing_spec hi hn]
  simp only [modState_queues, modQueue_queues, if_true, hret]
  rw [if_neg (by omega)]
  refine ⟨_, rfl, ?_⟩
  set st' := ((((st.modQueue (g.task n)
    (fun q => { q with processing := q.processing.erase (g.key n) })).modState
      (g.task n) (fun s => { s with processing := s.processing - 1 })).queueReadyBlock g n).modQueue
      (g.task n) (fun q => { q with retries := upd q.retries (g.key n) (q.retries (g.key n) + 1) }))
    with hst'
  have hrs : st'.rs = st.rs := rfl
  have hq : ∀ t, (st'.queues t).rootGen = (st.queues t).rootGen ∧
      (st'.queues t).readyQueue = (st.queues t).readyQueue ++ (if t = g.task n then [n] else []) ∧
      (st'.queues t).readyRoots = (st.queues t).readyRoots ∧
      (st'.queues t).retries = (if t = g.task n then
        upd (st.queues t).retries (g.key n) ((st.queues t).retries (g.key n) + 1)
        else (st.queues t).retries) ∧
      (st'.queues t).processing = if t = g.task n then (st.queues t).processing.erase (g.key n)
        else (st.queues t).processing := by
    intro t
    by_cases ht : t = g.task n
    · subst ht
      simp [hst', modQueue_queues, queueReadyBlock]
    · simp [hst', modQueue_queues, queueReadyBlock, ht]
  have hs : ∀ t, st'.states t = if t = g.task n then
      { st.states t with processing := (st.states t).processing - 1, ready := (st.states t).ready + 1 }
      else st.states t := by
    intro t
    by_cases ht : t = g.task n
    · subst ht
      simp [hst', modState_states, queueReadyBlock]
    · simp [hst', modState_states, queueReadyBlock, ht]
  clear_value st'
  have hnq : ∀ t, n ∉ (st.queues t).rootGen ++ (st.queues t).readyQueue := fun t h =>
    ((hi.q_mem t n).1 h).2.2.2.2.2 hn
  refine ⟨by rw [hrs]; exact hi.rs, by rw [hrs]; exact hi.lost, hi.c_le,
    by rw [hrs]; exact hi.tight, ?_, ?_, ?_, ?_, ?_, ?_, ?_, ?_, ?_, ?_, ?_, ?_, ?_, ?_, ?_, ?_,
    hi.c_pos, ?_, ?_, ?_, hi.c_up⟩
  · rintro x ⟨h, _⟩; exact hi.hNode x h
  · rintro x ⟨h, _⟩; exact hi.hUp x h
  · rintro x ⟨h, _⟩; exact hi.hS x h
  · rintro x ⟨h, _⟩; exact hi.hF x h
  · intro x hx
    rcases hi.sk x hx with h | h
    · exact Or.inl h
    · refine Or.inr ⟨h, ?_⟩
      rintro rfl
      exact hskn hx
  · intro t
    rw [(hq t).1, (hq t).2.1, ← List.append_assoc]
    refine List.Nodup.append (hi.q_nodup t) (by split <;> simp) ?_
    intro x h1 h2
    split at h2
    · rw [List.mem_singleton] at h2
      subst h2
      exact hnq t h1
    · cases h2
  · intro t x
    rw [(hq t).1, (hq t).2.1, ← List.append_assoc, List.mem_append, hi.q_mem]
    constructor
    · rintro (⟨a1, a2, a3, a4, a5, a6⟩ | a1)
      · exact ⟨a1, a2, a3, a4, a5, fun h => a6 h.1⟩
      · split at a1
        · rename_i ht
          rw [List.mem_singleton] at a1
          subst a1
          exact ⟨hnn, ht.symm, hnup, hns, hnf, fun h => h.2 rfl⟩
        · cases a1
    · rintro ⟨a1, a2, a3, a4, a5, a6⟩
      by_cases hxn : x = n
      · subst hxn
        right
        rw [if_pos a2.symm]
        exact List.mem_singleton.2 rfl
      · left
        exact ⟨a1, a2, a3, a4, a5, fun h => a6 ⟨h, hxn⟩⟩
  · intro t; rw [(hq t).1, (hq t).2.2.1]; exact hi.roots t
  · intro t k
    rw [(hq t).2.2.2.2]
    exact proc_remove hg hi hn t k
  · intro t
    rw [(hq t).1, (hq t).2.1, hs, List.length_append]
    have := hi.ready t
    by_cases ht : t = g.task n
    · subst ht; simp; omega
    · simp [ht]; omega
  · intro t
    rw [hs, cnt_remove hg t H hnn hn, ← hi.processing]
    split <;> simp
  · intro t; rw [hs, ← hi.completed]; split <;> rfl
  · intro t; rw [hs, ← hi.skipped]; split <;> rfl
  · intro t; rw [hs, ← hi.failed]; split <;> rfl
  · intro t; rw [hs, ← hi.total]; split <;> rfl
  · intro t; rw [hs, ← hi.orphaned]; split <;> rfl
  · intro x hx hxf
    rw [(hq _).2.2.2.1]
    have h1 := hi.retries x hx hxf
    by_cases hxn : x = n
    · subst hxn
      simp [upd, h1]
    · have hk : g.key x ≠ g.key n := fun h => hxn (hg.key_inj x hx n hnn h)
      split
      · simp [upd, hxn, hk, h1]
      · simp [upd, hxn, h1]
  · intro x hx hxf
    simp only [upd]
    split
    · rename_i h
      subst h
      right; push_cast; omega
    · exact hi.fails_le x hx hxf
  · intro x hx
    have hxn : x ≠ n := fun h => hnf (h ▸ hx)
    simp only [upd, hxn, if_false]
    exact hi.fails_dead x hx

/-- Releasing a held block with FAILED without retries left. -/
theorem release_dead [DecidableEq K] (hg : g.OK) {st : Sched N T K} {S F H Sk : N → Prop}
    {fails c : N → Nat} (hi : Inv g st S F H Sk fails c) {n : N} (hn : H n) (hskn : ¬ Sk n)
    (hmax : g.maxRetries (g.task n) ≤ (fails n : Int)) (pick : Nat → Finset N → N)
    (hp : ∀ k s, s.Nonempty → pick k s ∈ s) :
    ∃ st' orphans, st.releaseBlock g pick n .failed = .ok st' ∧
      (∀ x ∈ orphans, x ∈ g.nodes ∧ Anc g n x ∧ x ∉ st.rs.boundary) ∧
      (∃ rs', st.rs.markFailure g pick n = .ok (orphans, rs')) ∧
      Inv g st' S (fun x => F x ∨ x = n) (fun x => H x ∧ x ≠ n) Sk (upd fails n (fails n + 1))
        (fun x => c x + if x ∈ orphans then 1 else 0) := by
  have hnn := hi.hNode n hn
  have hnup := hi.hUp n hn
  have hns := hi.hS n hn
  have hnf := hi.hF n hn
  have hret := hi.retries n hnn hnf
  obtain ⟨orphans, rs', e1, e2, elost, e3, e4, e5, e6⟩ := RS.markFailure_spec hg hi.rs hi.lost hnn hnup hns hnf pick hp
  unfold releaseBlock
  rw [removeFromProcessing_spec hi hn]
  simp only [modState_queues, modQueue_queues, if_true, hret]
  rw [if_pos (by omega)]
  simp only [modState_rs, modQueue_rs, e1]
  obtain ⟨st', hst'⟩ : ∃ x : Sched N T K, x = ((({ ((st.modQueue (g.task n)
    (fun q => { q with processing := q.processing.erase (g.key n) })).modState
      (g.task n) (fun s => { s with processing := s.processing - 1 })) with rs := rs' } :
      Sched N T K).modState (g.task n) (fun s => { s with failed := s.failed + 1 })).countOrphans g
      orphans) := ⟨_, rfl⟩
  refine ⟨st', orphans, by rw [hst']; rfl, fun x hx => ⟨(e3 x hx).1, (e3 x hx).2, e5 x hx⟩,
    ⟨rs', rfl⟩, ?_⟩
  have hrs : st'.rs = rs' := by rw [hst']; rfl
  have hq : ∀ t, st'.queues t = if t = g.task n then
      { st.queues t with processing := (st.queues t).processing.erase (g.key n) }
      else st.queues t := by
    intro t
    by_cases ht : t = g.task n
    · subst ht
      simp [hst', modQueue_queues, countOrphans]
    · simp [hst', modQueue_queues, countOrphans, ht]
  have hq' : ∀ t, (st'.queues t).rootGen = (st.queues t).rootGen ∧
      (st'.queues t).readyQueue = (st.queues t).readyQueue ∧
      (st'.queues t).readyRoots = (st.queues t).readyRoots ∧
      (st'.queues t).retries = (st.queues t).retries ∧
      (st'.queues t).processing = if t = g.task n then (st.queues t).processing.erase (g.key n)
        else (st.queues t).processing := by
    intro t
    rw [hq]
    split <;> exact ⟨rfl, rfl, rfl, rfl, rfl⟩
  have hs : ∀ t, (st'.states t).ready = (st.states t).ready ∧
      (st'.states t).processing = (st.states t).processing - (if t = g.task n then 1 else 0) ∧
      (st'.states t).failed = (st.states t).failed + (if t = g.task n then 1 else 0) ∧
      (st'.states t).completed = (st.states t).completed ∧
      (st'.states t).skipped = (st.states t).skipped ∧
      (st'.states t).total = (st.states t).total ∧
      (st'.states t).orphaned = (st.states t).orphaned +
        ((orphans.filter (fun o => g.task o = t)).card : Int) := by
    intro t
    by_cases ht : t = g.task n
    · subst ht
      simp [hst', modState_states, countOrphans]
    · simp [hst', modState_states, countOrphans, ht]
  clear hst'
  refine ⟨by rw [hrs]; exact e2, by rw [hrs]; exact elost, ?_, by
      rw [hrs]; exact fun h => RS.markFailure_tight hg h hi.rs (hi.tight h) hnn hnup hns hnf pick e1,
    ?_, ?_, ?_, ?_, ?_, ?_, ?_, ?_, ?_, ?_, ?_, ?_, ?_, ?_, ?_, ?_,
    ?_, ?_, ?_, ?_, ?_⟩
  · intro hcase x hx
    by_cases hxo : x ∈ orphans
    · rw [if_pos hxo]
      have hnb : ¬ g.Below F x := RS.orphans_new hg hi.rs hi.lost hnn hnup hns hnf e3 e5 e6 hcase x hxo
      have := mt (hi.c_pos x hx).1 hnb
      omega
    · rw [if_neg hxo, add_zero]
      exact hi.c_le (hcase.mono (fun _ => id) fun _ => Or.inl) x hx
  · rintro x ⟨h, _⟩; exact hi.hNode x h
  · rintro x ⟨h, _⟩; exact hi.hUp x h
  · rintro x ⟨h, _⟩; exact hi.hS x h
  · rintro x ⟨h, h'⟩ (h1 | h1)
    · exact hi.hF x h h1
    · exact h' h1
  · intro x hx
    rcases hi.sk x hx with h | h
    · exact Or.inl h
    · refine Or.inr ⟨h, ?_⟩
      rintro rfl
      exact hskn hx
  · intro t
    rw [(hq' t).1, (hq' t).2.1]
    exact hi.q_nodup t
  · intro t x
    rw [(hq' t).1, (hq' t).2.1, hi.q_mem]
    constructor
    · rintro ⟨a1, a2, a3, a4, a5, a6⟩
      refine ⟨a1, a2, a3, a4, ?_, fun h => a6 h.1⟩
      rintro (h | rfl)
      · exact a5 h
      · exact a6 hn
    · rintro ⟨a1, a2, a3, a4, a5, a6⟩
      rw [not_or] at a5
      exact ⟨a1, a2, a3, a4, a5.1, fun h => a6 ⟨h, a5.2⟩⟩
  · intro t; rw [(hq' t).1, (hq' t).2.2.1]; exact hi.roots t
  · intro t k
    rw [(hq' t).2.2.2.2]
    exact proc_remove hg hi hn t k
  · intro t
    rw [(hq' t).1, (hq' t).2.1, (hs t).1]
    exact hi.ready t
  · intro t
    rw [(hs t).2.1, cnt_remove hg t H hnn hn, ← hi.processing]
  · intro t; rw [(hs t).2.2.2.1]; exact hi.completed t
  · intro t; rw [(hs t).2.2.2.2.1]; exact hi.skipped t
  · intro t; rw [(hs t).2.2.1, cnt_insert hg t F hnn hnf, ← hi.failed]
  · intro t; rw [(hs t).2.2.2.2.2.1]; exact hi.total t
  · intro t
    rw [(hs t).2.2.2.2.2.2, csum_add hg t c orphans (fun x hx => (e3 x hx).1), ← hi.orphaned]
  · intro x hx
    have hc := hi.c_pos x hx
    constructor
    · intro h
      by_cases hxo : x ∈ orphans
      · exact ⟨n, Or.inr rfl, (e3 x hxo).2⟩
      · rw [if_neg hxo, add_zero] at h
        obtain ⟨f, h1, h2⟩ := hc.1 h
        exact ⟨f, Or.inl h1, h2⟩
    · rintro ⟨f, h1 | rfl, h2⟩
      · have := hc.2 ⟨f, h1, h2⟩
        omega
      · rcases e4 x hx h2 with h | h
        · rw [if_pos h]; omega
        · have := hc.2 h
          omega
  · intro x hx hxf
    rw [not_or] at hxf
    rw [(hq' _).2.2.2.1]
    simp only [upd, hxf.2, if_false]
    exact hi.retries x hx hxf.1
  · intro x hx hxf
    rw [not_or] at hxf
    simp only [upd, hxf.2, if_false]
    exact hi.fails_le x hx hxf.1
  · rintro x hx
    simp only [upd]
    split
    · rename_i h
      subst h
      refine ⟨by omega, by push_cast; omega⟩
    · rename_i h
      rcases hx with hx | hx
      · exact hi.fails_dead x hx
      · exact absurd hx h
  · intro x hx
    by_cases hxo : x ∈ orphans
    · rw [if_pos hxo, cntAll_add hg hnn (P := fun f => F f ∧ Anc g f x) (fun h => hnf h.1) (fun f hfn => by
        simp [hfn]) ⟨Or.inr rfl, (e3 x hxo).2⟩]
      have := hi.c_up x hx
      omega
    · rw [if_neg hxo, add_zero]
      exact (hi.c_up x hx).trans (cntAll_le fun f h => ⟨Or.inl h.1, h.2⟩)

end Sched
end Verif
