import Verif.Props.Scheduler
import Mathlib.Algebra.BigOperators.Group.List.Basic

/-! # Claims about failures, outcomes and bookkeeping (C21–C26, C28) -/

set_option linter.unusedSectionVars false

namespace Verif

open Spec

variable {N T K : Type} [DecidableEq N] [DecidableEq T] [DecidableEq K] {g : DGraph N T K}
  {tr : List (Ev N)} {st : Sched N T K}

/-! ### C21 -/

theorem RunOrph.run {rep : Finset N} (h : RunOrph g tr st rep) : Run g tr st := by
  induction h with
  | init => exact Run.init
  | acquire chk t _ h1 ih => exact Run.acquire chk t ih h1
  | good pick _ h1 h2 h3 ih => exact Run.good pick ih h1 h2 h3
  | bad pick _ h1 h2 h3 ih => exact Run.bad pick ih h1 h2 h3

theorem orphan_append_of_not_bad {tr : List (Ev N)} {es : List (Ev N)} (h : ∀ n, Ev.bad n ∉ es)
    (x : N) : Orphan g (tr ++ es) x ↔ Orphan g tr x := by
  have : ∀ f, Dead g (tr ++ es) f ↔ Dead g tr f := by
    intro f
    have hc : es.count (.bad f) = 0 := List.count_eq_zero.2 (h f)
    simp [Dead, List.count_append, hc, h f]
  simp [Orphan, this]

theorem orphansOf_failed (hg : g.OK) (h : Run g tr st) {n : N} (hn : Held tr n)
    {pick : Nat → Finset N → N} (hp : LegalPick pick) :
    (∀ x ∈ st.orphansOf g pick n .failed, x ∈ g.nodes ∧ Orphan g (tr ++ [.bad n]) x) ∧
    (∀ x ∈ g.nodes, Orphan g (tr ++ [.bad n]) x → x ∈ st.orphansOf g pick n .failed ∨ Orphan g tr x) := by
  obtain ⟨c, hi⟩ := (h.inv hg).inv
  have hnn := hi.hNode n hn
  have hret := hi.retries n hnn (hi.hF n hn)
  have hiff : ∀ x, Orphan g (tr ++ [.bad n]) x ↔ Orphan g tr x ∨
      g.maxRetries (g.task n) ≤ tr.count (.bad n) ∧ Anc g n x := by
    intro x
    unfold Orphan
    constructor
    · rintro ⟨f, hf, ha⟩
      rcases (dead_bad tr n f).1 hf with hf | ⟨rfl, hm⟩
      · exact Or.inl ⟨f, hf, ha⟩
      · exact Or.inr ⟨hm, ha⟩
    · rintro (⟨f, hf, ha⟩ | ⟨hm, ha⟩)
      · exact ⟨f, (dead_bad tr n f).2 (Or.inl hf), ha⟩
      · exact ⟨n, (dead_bad tr n n).2 (Or.inr ⟨rfl, hm⟩), ha⟩
  unfold Sched.orphansOf
  rw [Sched.removeFromProcessing_spec hi hn]
  simp only [Sched.modState_queues, Sched.modQueue_queues, if_true, hret, Sched.modState_rs,
    Sched.modQueue_rs]
  by_cases hm : g.maxRetries (g.task n) ≤ tr.count (.bad n)
  · rw [if_pos hm]
    obtain ⟨o, rs', e1, _, _, e3, e4, _⟩ := RS.markFailure_spec hg hi.rs hi.lost hnn (hi.hUp n hn)
      (hi.hS n hn) (hi.hF n hn) pick hp
    rw [e1]
    simp only
    constructor
    · intro x hx
      exact ⟨(e3 x hx).1, (hiff x).2 (Or.inr ⟨hm, (e3 x hx).2⟩)⟩
    · intro x hx ho
      rcases (hiff x).1 ho with h1 | ⟨_, h1⟩
      · exact Or.inr h1
      · exact e4 x hx h1
  · rw [if_neg hm]
    constructor
    · intro x hx; exact absurd hx (Finset.notMem_empty x)
    · intro x _ ho
      rcases (hiff x).1 ho with h1 | ⟨h1, _⟩
      · exact Or.inr h1
      · exact absurd h1 hm

/-- C21. At every moment, the blocks that have been reported as orphans (the variable `orphans` of
`release_block`, accumulated over all calls) are exactly the blocks that are transitively downstream
of a permanently failed block — whatever order `set.pop` chooses.  Partial: for consistent graphs
(`C21_false_asymmetric` has no consistent graph). -/
theorem C21_orphans_exact_partial (hg : g.OK) {rep : Finset N} (h : RunOrph g tr st rep) (x : N) :
    x ∈ rep ↔ x ∈ g.nodes ∧ Orphan g tr x := by
  induction h with
  | init => simp [Orphan, Dead]
  | @acquire tr st st1 rep skips r chk t hr hacq ih =>
    rw [ih, orphan_append_of_not_bad]
    intro n hn
    simp only [acquireEvents, List.mem_append, List.mem_map] at hn
    rcases hn with ⟨_, _, h⟩ | hn
    · cases h
    · rcases r with _ | m <;> simp at hn
  | @good tr st st1 rep n pick hr hn hp hrel ih =>
    have he : st.orphansOf g pick n .success = ∅ := by
      unfold Sched.orphansOf
      split
      · rfl
      · rfl
    rw [he, Finset.union_empty, ih, orphan_append_of_not_bad]
    intro m hm
    simp at hm
  | @bad tr st st1 rep n pick hr hn hp hrel ih =>
    obtain ⟨h1, h2⟩ := orphansOf_failed hg hr.run hn hp
    rw [Finset.mem_union, ih]
    constructor
    · rintro (⟨a1, f, a2, a3⟩ | hx)
      · exact ⟨a1, f, (dead_bad tr n f).2 (Or.inl a2), a3⟩
      · exact h1 x hx
    · rintro ⟨a1, a2⟩
      rcases h2 x a1 a2 with h3 | h3
      · exact Or.inr h3
      · exact Or.inl ⟨a1, h3⟩

/-- Orphans are never handed out, never examined by the check function, and never complete or fail.  Partial: for consistent graphs
(`C21_false_asymmetric` has no consistent graph). -/
theorem C21_orphans_stay_partial (hg : g.OK) (h : Run g tr st) {pre post : List (Ev N)} {n : N}
    (htr : tr = pre ++ post) (ho : Orphan g pre n) : ∀ e ∈ tr, e.node ≠ n := by
  -- an orphan's ancestor is dead, hence never done, so the orphan is never ready
  have hl := h.legal hg
  obtain ⟨c, hi⟩ := (h.inv hg).inv
  obtain ⟨f, hf, ha⟩ := ho
  have hft : Dead g tr f := by
    refine ⟨by rw [htr]; exact List.mem_append_left _ hf.1, ?_⟩
    have := hf.2
    rw [htr, List.count_append]
    push_cast
    omega
  have hnd : ¬ Done tr f := fun hd => hi.rs.disj f hd hft
  have hall : ∀ p q, tr = p ++ q → ∀ e ∈ p, e.node ≠ n := by
    intro p
    induction p using List.reverseRecOn with
    | nil => intro q _ e he; cases he
    | append_singleton p e ih =>
      intro q hq e' he'
      have hq' : tr = p ++ e :: q := by rw [hq]; simp
      have hp := ih (e :: q) hq'
      rcases List.mem_append.1 he' with he' | he'
      · exact hp e' he'
      · rw [List.mem_singleton] at he'
        subst he'
        have hal := hl p e' q hq'
        intro hen
        have hcount : ∀ ev : Ev N, ev.node = n → p.count ev = 0 := by
          intro ev hev
          exact List.count_eq_zero.2 (fun hm => hp ev hm hev)
        have hready : ¬ Ready g p n := by
          intro hr
          have hfd : Done p f := legal_anc_done (legal_prefix hl hq') hr.2.1 ha
          rcases hfd with h | h
          · exact hnd (Or.inl (by rw [hq']; exact List.mem_append_left _ h))
          · exact hnd (Or.inr (by rw [hq']; exact List.mem_append_left _ h))
        cases e' with
        | skip m => simp only [Ev.node] at hen; subst hen; exact hready hal
        | hand m => simp only [Ev.node] at hen; subst hen; exact hready hal
        | good m =>
          simp only [Ev.node] at hen; subst hen
          have : Held p m := hal
          unfold Held at this
          rw [hcount (.hand m) rfl] at this
          omega
        | bad m =>
          simp only [Ev.node] at hen; subst hen
          have : Held p m := hal
          unfold Held at this
          rw [hcount (.hand m) rfl] at this
          omega
  exact hall tr [] (by simp)

/-- Blocks that are not downstream of a failure are unaffected: when the run is over they have
completed, unless they failed themselves.  Partial: for consistent graphs
(`C21_false_asymmetric` has no consistent graph). -/
theorem C21_unaffected_partial (hg : g.OK) (h : Run g tr st) (hr : st.getReadyTasks g = [])
    (hh : ∀ n, ¬ Held tr n) {n : N} (hn : n ∈ g.nodes) (h1 : ∀ f, Dead g tr f → f ≠ n ∧ ¬ Anc g f n) :
    Done tr n := by
  rcases C20_no_block_forgotten_partial hg h hr hh n hn with h2 | h2 | ⟨f, h2, h3⟩
  · exact h2
  · exact absurd rfl (h1 n h2).1
  · exact absurd h3 (h1 f h2).2

/-! ### C22 -/

theorem csum_eq_cnt {t : T} {c : N → Nat} {P : N → Prop}
    (hpos : ∀ n ∈ g.nodes, 0 < c n ↔ P n) (hle : ∀ n ∈ g.nodes, c n ≤ 1) :
    csum g t c = cnt g t P := by
  unfold csum cnt
  congr 1
  have : ∀ l : List N, (∀ n ∈ l, n ∈ g.nodes) →
      (l.map (fun n => if g.task n = t then c n else 0)).sum =
      l.countP (fun n => @decide (g.task n = t ∧ P n) (Classical.propDecidable _)) := by
    intro l
    induction l with
    | nil => intro _; rfl
    | cons x l ih =>
      intro hl
      have hx := hl x List.mem_cons_self
      rw [List.map_cons, List.sum_cons, List.countP_cons, ih (fun n hn => hl n (List.mem_cons_of_mem _ hn))]
      have h1 := hpos x hx
      have h2 := hle x hx
      by_cases ht : g.task x = t
      · by_cases hp : P x
        · have := h1.2 hp
          simp [ht, hp]; omega
        · have := mt h1.1 hp
          simp [ht, hp]; omega
      · simp [ht]
  exact this g.nodes (fun n hn => hn)

theorem cnt_le_csum {t : T} {c : N → Nat} {P : N → Prop}
    (hpos : ∀ n ∈ g.nodes, 0 < c n ↔ P n) : cnt g t P ≤ csum g t c := by
  unfold csum cnt
  have : ∀ l : List N, (∀ n ∈ l, n ∈ g.nodes) →
      l.countP (fun n => @decide (g.task n = t ∧ P n) (Classical.propDecidable _)) ≤
      (l.map (fun n => if g.task n = t then c n else 0)).sum := by
    intro l
    induction l with
    | nil => intro _; exact le_refl _
    | cons x l ih =>
      intro hl
      have hx := hl x List.mem_cons_self
      rw [List.map_cons, List.sum_cons, List.countP_cons]
      have := ih (fun n hn => hl n (List.mem_cons_of_mem _ hn))
      have h1 := hpos x hx
      by_cases ht : g.task x = t
      · by_cases hp : P x
        · have := h1.2 hp
          simp [ht, hp] at *; omega
        · simp [ht, hp] at *; omega
      · simp [ht] at *; omega
  exact_mod_cast this g.nodes (fun n hn => hn)

/-- The situations in which the orphan count is exact: each block has at most one permanently failed ancestor, or does not
have among its direct upstream blocks one that has completed and two others that have failed permanently or are orphans.
In particular: at most one permanent failure (`exact_of_one`), nothing completed, or no more than two direct upstream
blocks (`exact_of_two`). -/
def OrphanExact (g : DGraph N T K) (tr : List (Ev N)) : Prop :=
  ∀ n ∈ g.nodes, (∀ f f', Dead g tr f → Dead g tr f' → Anc g f n → Anc g f' n → f = f') ∨
    ∀ u ∈ g.up n, ∀ p ∈ g.up n, ∀ q ∈ g.up n, u ≠ p → u ≠ q → Done tr u →
      Dead g tr p ∨ Orphan g tr p → Dead g tr q ∨ Orphan g tr q → p = q

theorem two_up {l : List N} (h : l.length ≤ 2) {u p q : N} (hu : u ∈ l) (hp : p ∈ l) (hq : q ∈ l) (h1 : u ≠ p)
    (h2 : u ≠ q) : p = q := by
  by_contra hne
  have hnd : [u, p, q].Nodup := by simp [h1, h2, hne]
  have hsub : [u, p, q] ⊆ l := by
    intro y hy
    simp only [List.mem_cons, List.not_mem_nil, or_false] at hy
    rcases hy with rfl | rfl | rfl <;> assumption
  have := (hnd.subperm hsub).length_le
  simp only [List.length_cons, List.length_nil] at this
  omega

theorem exact_of_one (h : ∀ n ∈ g.nodes, ∀ f f', Dead g tr f → Dead g tr f' → Anc g f n → Anc g f' n → f = f') :
    OrphanExact g tr := fun n hn => Or.inl (h n hn)

theorem exact_of_two (h : ∀ n ∈ g.nodes, (g.up n).length ≤ 2) : OrphanExact g tr := fun n hn =>
  Or.inr fun _ hu _ hp _ hq h1 h2 _ _ _ => two_up (h n hn) hu hp hq h1 h2

/-- The situations in which the orphan count will remain exact as long as no further block fails permanently: as
`OrphanExact`, with the upstream blocks that can still complete in place of those that have completed. -/
def OrphanSafe (g : DGraph N T K) (tr : List (Ev N)) : Prop :=
  ∀ n ∈ g.nodes, (∀ f f', Dead g tr f → Dead g tr f' → Anc g f n → Anc g f' n → f = f') ∨
    ∀ u ∈ g.up n, ∀ p ∈ g.up n, ∀ q ∈ g.up n, ¬ (Dead g tr u ∨ Orphan g tr u) →
      Dead g tr p ∨ Orphan g tr p → Dead g tr q ∨ Orphan g tr q → p = q

theorem safe_of_one (h : ∀ n ∈ g.nodes, ∀ f f', Dead g tr f → Dead g tr f' → Anc g f n → Anc g f' n → f = f') :
    OrphanSafe g tr := fun n hn => Or.inl (h n hn)

theorem safe_of_two (h : ∀ n ∈ g.nodes, (g.up n).length ≤ 2) : OrphanSafe g tr := fun n hn =>
  Or.inr fun _ hu _ hp _ hq h1 h2 h3 => two_up (h n hn) hu hp hq (fun e => h1 (e ▸ h2)) (fun e => h1 (e ▸ h3))

theorem OrphanSafe.of_disjoint (h : OrphanSafe g tr) (hd : ∀ n, Done tr n → ¬ Dead g tr n ∧ ¬ Orphan g tr n) :
    OrphanExact g tr := fun n hn =>
  (h n hn).imp id fun h u hu p hp q hq _ _ h1 h2 h3 =>
    h u hu p hp q hq (fun h4 => h4.elim (hd u h1).1 (hd u h1).2) h2 h3

theorem OrphanSafe.exact (h : OrphanSafe g tr) (hg : g.OK) (hr : Run g tr st) : OrphanExact g tr :=
  h.of_disjoint fun n => (C19_disjoint_partial hg hr n).2.2.1

/-- C22, partial. The full claim has no `OrphanExact` hypothesis and is false (`C22_false`): the
orphan count of each task equals the number of its orphaned blocks, provided each block has at most one
permanently failed ancestor, or not both a completed and two lost direct upstream blocks. -/
theorem C22_orphan_count_partial (hg : g.OK) (h : Run g tr st) (hx : OrphanExact g tr) (t : T) :
    (st.states t).orphaned = cnt g t (Orphan g tr) := by
  obtain ⟨c, hi⟩ := (h.inv hg).inv
  rw [hi.orphaned]
  apply csum_eq_cnt hi.c_pos
  intro n hn
  exact hi.c_le hx n hn

/-- C22, what holds always: the count is never too small, and it is zero iff there are no orphans. -/
theorem C22_orphan_count_lower (hg : g.OK) (h : Run g tr st) (t : T) :
    cnt g t (Orphan g tr) ≤ (st.states t).orphaned ∧
    ((st.states t).orphaned = 0 ↔ ∀ n ∈ g.nodes, g.task n = t → ¬ Orphan g tr n) := by
  obtain ⟨c, hi⟩ := (h.inv hg).inv
  have hle : cnt g t (Orphan g tr) ≤ csum g t c := cnt_le_csum hi.c_pos
  rw [hi.orphaned]
  refine ⟨hle, ?_⟩
  constructor
  · intro h0
    have h1 := cnt_nonneg (g := g) t (Orphan g tr)
    exact cnt_eq_zero.1 (by omega)
  · intro h0
    unfold csum
    rw [Int.natCast_eq_zero]
    apply List.sum_eq_zero
    intro x hx
    obtain ⟨n, hn, rfl⟩ := List.mem_map.1 hx
    split
    · rename_i ht
      have := mt (hi.c_pos n hn).1 (h0 n hn ht)
      omega
    · rfl

/-- C22, how wrong the count can be: an orphan is counted at most once for each permanently failed block that it is
downstream of.  (In `C22_false` it is counted as often as that.) -/
theorem C22_orphan_count_upper (hg : g.OK) (h : Run g tr st) (t : T) :
    (st.states t).orphaned ≤ (((g.nodes.filter (fun n => g.task n = t)).map
      (fun n => cntAll g (fun f => Dead g tr f ∧ Anc g f n))).sum : Nat) := by
  obtain ⟨c, hi⟩ := (h.inv hg).inv
  rw [hi.orphaned]
  unfold csum
  rw [Int.ofNat_le]
  have hc := hi.c_up
  clear hi
  revert hc
  induction g.nodes with
  | nil => intro _; simp
  | cons x l ih =>
    intro hc
    have h1 := ih fun n hn => hc n (List.mem_cons_of_mem _ hn)
    have h2 := hc x List.mem_cons_self
    by_cases ht : g.task x = t
    · simp only [List.map_cons, List.sum_cons, List.filter_cons, ht, decide_true, if_true]
      exact Nat.add_le_add h2 h1
    · simp only [List.map_cons, List.sum_cons, List.filter_cons, ht, decide_false, if_false, Nat.zero_add]
      exact h1

/-- The number of finished blocks plus the number of unfinished blocks of a task. -/
theorem finished_count (hg : g.OK) (h : Run g tr st) (t : T) :
    (st.states t).total - (st.states t).completed - (st.states t).failed - cnt g t (Orphan g tr) =
      cnt g t (fun n => ¬ (Done tr n ∨ Dead g tr n ∨ Orphan g tr n)) := by
  obtain ⟨_, _, h3, _, h5, h6⟩ := C19_counters_partial hg h t
  have hd := fun n => C19_disjoint_partial hg h n
  rw [h3, h5, h6]
  have e1 : cnt g t (fun n => Dead g tr n ∨ Orphan g tr n) =
      cnt g t (Dead g tr) + cnt g t (Orphan g tr) := cnt_or (fun n hn => (hd n).2.2.2 hn)
  have e2 : cnt g t (fun n => Done tr n ∨ (Dead g tr n ∨ Orphan g tr n)) =
      cnt g t (Done tr) + cnt g t (fun n => Dead g tr n ∨ Orphan g tr n) :=
    cnt_or (fun n hn => by rw [not_or]; exact (hd n).2.2.1 hn)
  have e3 : cnt g t (fun n => (Done tr n ∨ Dead g tr n ∨ Orphan g tr n) ∨
      ¬ (Done tr n ∨ Dead g tr n ∨ Orphan g tr n)) =
      cnt g t (fun n => Done tr n ∨ Dead g tr n ∨ Orphan g tr n) +
      cnt g t (fun n => ¬ (Done tr n ∨ Dead g tr n ∨ Orphan g tr n)) :=
    cnt_or (fun n hn => not_not.2 hn)
  have e4 : cnt g t (fun n => (Done tr n ∨ Dead g tr n ∨ Orphan g tr n) ∨
      ¬ (Done tr n ∨ Dead g tr n ∨ Orphan g tr n)) = cnt g t (fun _ => True) :=
    cnt_congr (fun n _ _ => iff_of_true (em _) trivial)
  omega

/-- C22, partial: under the same conditions `is_done()` holds exactly when every block of the task has
completed, failed permanently or been orphaned. -/
theorem C22_is_done_partial (hg : g.OK) (h : Run g tr st) (hx : OrphanExact g tr) (t : T) :
    (st.states t).isDone = true ↔
      ∀ n ∈ g.nodes, g.task n = t → Done tr n ∨ Dead g tr n ∨ Orphan g tr n := by
  unfold TState.isDone
  rw [C22_orphan_count_partial hg h hx t, beq_iff_eq, finished_count hg h t, cnt_eq_zero]
  simp only [not_not]

/-- Without any failure of the block's ancestors nothing special is needed: as long as no block of the
task is orphaned, `is_done()` is exact. -/
theorem C22_is_done_no_orphans (hg : g.OK) (h : Run g tr st) (t : T)
    (ho : ∀ n ∈ g.nodes, g.task n = t → ¬ Orphan g tr n) :
    (st.states t).isDone = true ↔ ∀ n ∈ g.nodes, g.task n = t → Done tr n ∨ Dead g tr n := by
  unfold TState.isDone
  rw [(C22_orphan_count_lower hg h t).2.2 ho, beq_iff_eq]
  have h0 := cnt_eq_zero.2 ho
  have hf := finished_count hg h t
  rw [h0] at hf
  rw [hf, cnt_eq_zero]
  constructor
  · intro hx n hn ht
    rcases not_not.1 (hx n hn ht) with h | h | h
    · exact Or.inl h
    · exact Or.inr h
    · exact absurd h (ho n hn ht)
  · intro hx n hn ht
    rw [not_not]
    exact (hx n hn ht).imp id Or.inl

/-- `pending_count` is the number of blocks that are still waiting for an upstream block. -/
theorem C22_pending_partial (hg : g.OK) (h : Run g tr st) (hx : OrphanExact g tr) (t : T) :
    (st.states t).pending = cnt g t (fun n => ¬ (Done tr n ∨ Dead g tr n ∨ Orphan g tr n) ∧
      ¬ Ready g tr n ∧ ¬ Held tr n) := by
  obtain ⟨h1, h2, h3, _, h5, h6⟩ := C19_counters_partial hg h t
  have hf := finished_count hg h t
  have hd := fun n => C19_disjoint_partial hg h n
  unfold TState.pending
  rw [C22_orphan_count_partial hg h hx t, h1, h2]
  have e1 : cnt g t (fun n => Ready g tr n ∨ Held tr n) = cnt g t (Ready g tr) + cnt g t (Held tr) :=
    cnt_or (fun n hn => ((hd n).1 hn).1)
  have e2 : cnt g t (fun n => (Ready g tr n ∨ Held tr n) ∨
      (¬ (Done tr n ∨ Dead g tr n ∨ Orphan g tr n) ∧ ¬ Ready g tr n ∧ ¬ Held tr n)) =
      cnt g t (fun n => Ready g tr n ∨ Held tr n) +
      cnt g t (fun n => ¬ (Done tr n ∨ Dead g tr n ∨ Orphan g tr n) ∧ ¬ Ready g tr n ∧ ¬ Held tr n) :=
    cnt_or (fun n hn => by tauto)
  have e3 : cnt g t (fun n => (Ready g tr n ∨ Held tr n) ∨
      (¬ (Done tr n ∨ Dead g tr n ∨ Orphan g tr n) ∧ ¬ Ready g tr n ∧ ¬ Held tr n)) =
      cnt g t (fun n => ¬ (Done tr n ∨ Dead g tr n ∨ Orphan g tr n)) := by
    apply cnt_congr
    intro n _ _
    have := hd n
    tauto
  omega

namespace Ex

/-- Blocks `0`, `1`, `2` without upstream blocks, `3` downstream of `0`, `4` downstream of `0`, `1`
and `2`; no retries. -/
def fan : DGraph (Fin 5) (Fin 1) (Fin 5) :=
  finGraph 5 1 (fun n => match n with | 3 => [0] | 4 => [0, 1, 2] | _ => []) (fun _ => 0)
    (fun _ => 0) [0]

theorem fan_ok : fan.OK := finGraph_ok (by decide) (by decide) (by decide) (by decide)

/-- `0` succeeds, `1` fails, `3` succeeds, `2` fails. -/
def fanActs : List (Act (Fin 5) (Fin 1)) :=
  [.acq 0 [], .acq 0 [], .acq 0 [], .good 0, .bad 1, .acq 0 [], .good 3, .bad 2]

def fanTr : List (Ev (Fin 5)) :=
  [.hand 0, .hand 1, .hand 2, .good 0, .bad 1, .hand 3, .good 3, .bad 2]

end Ex

/-- C22 is false in general: after this execution every block is finished (two completed, two failed,
one orphan) but the orphan is counted twice, so `is_done()` is `False` and stays so: nothing is
ready or held any more. -/
theorem C22_false : ∃ (g : DGraph (Fin 5) (Fin 1) (Fin 5)) (tr : List (Ev (Fin 5)))
    (st : Sched (Fin 5) (Fin 1) (Fin 5)), g.OK ∧ Run g tr st ∧
    (∀ n, ¬ Held tr n) ∧ st.getReadyTasks g = [] ∧
    (∀ n ∈ g.nodes, Done tr n ∨ Dead g tr n ∨ Orphan g tr n) ∧
    (st.states 0).orphaned = 2 ∧ cnt g 0 (Orphan g tr) = 1 ∧ (st.states 0).isDone = false := by
  have hx : (exec Ex.fan pickMin Ex.fanActs).map (fun p => (p.1, (p.2.states 0).orphaned,
      (p.2.states 0).isDone)) = some (Ex.fanTr, 2, false) := by decide +kernel
  obtain ⟨tr, st, h, e⟩ := exec_map pickMin_legal _ hx
  simp only [Prod.mk.injEq] at e
  obtain ⟨rfl, e1, e2⟩ := e
  have hr : st.getReadyTasks Ex.fan = [] := (getReadyTasks_nil Ex.fan_ok h).2 (by decide)
  have hh : ∀ n, ¬ Held Ex.fanTr n := by decide
  have hfin := C20_no_block_forgotten_partial Ex.fan_ok h hr hh
  refine ⟨Ex.fan, Ex.fanTr, st, Ex.fan_ok, h, hh, hr, hfin, e1, ?_, e2⟩
  have hf := finished_count Ex.fan_ok h 0
  obtain ⟨_, _, h3, _, h5, h6⟩ := C19_counters_partial Ex.fan_ok h 0
  have e3 : cnt Ex.fan 0 (Orphan Ex.fan Ex.fanTr) = ([4] : List (Fin 5)).length := by
    apply cnt_eq_length Ex.fan_ok 0 _ (by decide)
    intro n
    constructor
    · intro hn
      rw [List.mem_singleton] at hn
      subst hn
      exact ⟨List.mem_finRange _, rfl, 1, by decide, Relation.TransGen.single (by unfold Edge; decide)⟩
    · rintro ⟨_, _, ho⟩
      have hd := (C19_disjoint_partial Ex.fan_ok h n)
      have hnd : ¬ Done Ex.fanTr n := fun hx => ((hd.2.2.1 hx).2 ho)
      have hnf : ¬ Dead Ex.fan Ex.fanTr n := fun hx => (hd.2.2.2 hx ho)
      revert hnd hnf
      clear ho hd
      revert n
      decide
  exact e3

/-- `OrphanExact` is met by the example history of `vee`, in which one block fails. -/
example : OrphanExact Ex.vee Ex.veeTr ∧ ∃ st, Run Ex.vee Ex.veeTr st :=
  ⟨exact_of_two (by decide), Ex.vee_run⟩

/-! ### C23 -/

/-- The permanent outcomes in the history agree with `good`: completed blocks are good, permanently
failed blocks are not. -/
def Conforms (g : DGraph N T K) (good : N → Prop) (tr : List (Ev N)) : Prop :=
  (∀ n, Done tr n → good n) ∧ ∀ n, Dead g tr n → ¬ good n

/-- The result of a complete execution in terms of the outcomes only.  Partial: for consistent graphs
(`C23_false_asymmetric` has no consistent graph). -/
theorem C23_result_partial (hg : g.OK) (h : Run g tr st) (hr : st.getReadyTasks g = [])
    (hh : ∀ n, ¬ Held tr n) {good : N → Prop} (hc : Conforms g good tr) {n : N} (hn : n ∈ g.nodes) :
    (Done tr n ↔ good n ∧ ∀ a, Anc g a n → good a) ∧
    (Dead g tr n ↔ ¬ good n ∧ ∀ a, Anc g a n → good a) ∧
    (Orphan g tr n ↔ ∃ a, Anc g a n ∧ ¬ good a) := by
  have hl := h.legal hg
  obtain ⟨c, hi⟩ := (h.inv hg).inv
  have hd := C19_disjoint_partial hg h n
  have hdone : Done tr n → ∀ a, Anc g a n → good a := fun hx a ha => hc.1 a (hi.rs.sAnc ha hx)
  have hdead : Dead g tr n → ∀ a, Anc g a n → good a := fun hx a ha =>
    hc.1 a (legal_anc_done hl (hi.rs.fUp n hx) ha)
  have horph : Orphan g tr n → ∃ a, Anc g a n ∧ ¬ good a := by
    rintro ⟨f, h1, h2⟩
    exact ⟨f, h2, hc.2 f h1⟩
  have hall := C20_no_block_forgotten_partial hg h hr hh n hn
  refine ⟨⟨fun hx => ⟨hc.1 n hx, hdone hx⟩, ?_⟩, ⟨fun hx => ⟨hc.2 n hx, hdead hx⟩, ?_⟩, ⟨horph, ?_⟩⟩
  · rintro ⟨h1, h2⟩
    rcases hall with h3 | h3 | h3
    · exact h3
    · exact absurd h1 (hc.2 n h3)
    · obtain ⟨a, ha, hb⟩ := horph h3
      exact absurd (h2 a ha) hb
  · rintro ⟨h1, h2⟩
    rcases hall with h3 | h3 | h3
    · exact absurd (hc.1 n h3) h1
    · exact h3
    · obtain ⟨a, ha, hb⟩ := horph h3
      exact absurd (h2 a ha) hb
  · rintro ⟨a, ha, hb⟩
    rcases hall with h3 | h3 | h3
    · exact absurd (hdone h3 a ha) hb
    · exact absurd (hdead h3 a ha) hb
    · exact h3

/-- C23. Two complete executions — with any interleavings, retries, check functions and `set.pop`
orders — in which every block has the same permanent outcome end with the same sets of completed,
permanently failed and orphaned blocks.  Partial: for consistent graphs
(`C23_false_asymmetric` has no consistent graph). -/
theorem C23_schedule_independent_partial (hg : g.OK) {tr₁ tr₂ : List (Ev N)} {st₁ st₂ : Sched N T K}
    (h₁ : Run g tr₁ st₁) (h₂ : Run g tr₂ st₂) (hr₁ : st₁.getReadyTasks g = [])
    (hr₂ : st₂.getReadyTasks g = []) (hh₁ : ∀ n, ¬ Held tr₁ n) (hh₂ : ∀ n, ¬ Held tr₂ n)
    {good : N → Prop} (hc₁ : Conforms g good tr₁) (hc₂ : Conforms g good tr₂) {n : N}
    (hn : n ∈ g.nodes) :
    (Done tr₁ n ↔ Done tr₂ n) ∧ (Dead g tr₁ n ↔ Dead g tr₂ n) ∧ (Orphan g tr₁ n ↔ Orphan g tr₂ n) := by
  obtain ⟨a1, a2, a3⟩ := C23_result_partial hg h₁ hr₁ hh₁ hc₁ hn
  obtain ⟨b1, b2, b3⟩ := C23_result_partial hg h₂ hr₂ hh₂ hc₂ hn
  exact ⟨a1.trans b1.symm, a2.trans b2.symm, a3.trans b3.symm⟩

/-- Two different complete executions of `vee` in which only block `0` is bad. -/
example : ∃ tr₁ st₁ tr₂ st₂, Run Ex.vee tr₁ st₁ ∧ Run Ex.vee tr₂ st₂ ∧ tr₁ ≠ tr₂ ∧
    st₁.getReadyTasks Ex.vee = [] ∧ st₂.getReadyTasks Ex.vee = [] ∧
    (∀ n, ¬ Held tr₁ n) ∧ (∀ n, ¬ Held tr₂ n) ∧
    Conforms Ex.vee (fun n => n ≠ 0) tr₁ ∧ Conforms Ex.vee (fun n => n ≠ 0) tr₂ := by
  obtain ⟨st₁, h₁⟩ := Ex.vee_run
  obtain ⟨tr₂, st₂, h₂, e⟩ := exec_map pickMax_legal (·.1) (g := Ex.vee)
    (v := [.hand 0, .bad 0, .hand 1, .good 1, .hand 0, .bad 0, .hand 3, .bad 3, .hand 3, .good 3])
    (as := [.acq 0 [], .bad 0, .acq 0 [], .good 1, .acq 0 [], .bad 0, .acq 1 [], .bad 3, .acq 1 [],
      .good 3]) (by decide +kernel)
  simp only at e
  subst e
  refine ⟨_, st₁, _, st₂, h₁, h₂, by decide, (getReadyTasks_nil Ex.vee_ok h₁).2 (by decide),
    (getReadyTasks_nil Ex.vee_ok h₂).2 (by decide), by decide, by decide, ⟨?_, ?_⟩, ⟨?_, ?_⟩⟩ <;> decide

/-! ### C24 -/

/-- C24. In every reachable state, every legal call returns normally: `acquire_block` for any task and
any behaviour of the check function (including exceptions), and `release_block` of any held block with
SUCCESS or FAILED. In particular the loops of `acquire_block` and `mark_failure` end.  Partial: for consistent graphs
(`C24_false_asymmetric` has no consistent graph). -/
theorem C24_never_raises_partial (hg : g.OK) (h : Run g tr st) :
    (∀ (chk : Nat → N → Check) (t : T), ∃ res, st.acquireBlock g chk t = .ok res) ∧
    (∀ (pick : Nat → Finset N → N) (n : N), LegalPick pick → Held tr n →
      (∃ st', st.releaseBlock g pick n .success = .ok st') ∧
      (∃ st', st.releaseBlock g pick n .failed = .ok st')) := by
  have hri := h.inv hg
  constructor
  · intro chk t
    obtain ⟨skips, r, st', f1, _⟩ := hri.acquire hg chk t
    exact ⟨_, f1⟩
  · intro pick n hp hn
    obtain ⟨st', h1, _⟩ := hri.release_good hg hn pick
    obtain ⟨st'', h2, _⟩ := hri.release_bad hg hn hp
    exact ⟨⟨st', h1⟩, ⟨st'', h2⟩⟩

theorem sum_indicator : ∀ (l : List N) (x : N), l.Nodup → x ∈ l →
    (l.map (fun n => if x = n then 1 else 0)).sum = 1
  | [], _, _, h => absurd h List.not_mem_nil
  | y :: l, x, hnd, h => by
    obtain ⟨hy, hnd'⟩ := List.nodup_cons.1 hnd
    rw [List.map_cons, List.sum_cons]
    rcases List.mem_cons.1 h with rfl | hm
    · rw [if_pos rfl]
      have : (l.map (fun n => if x = n then 1 else 0)).sum = 0 := by
        apply List.sum_eq_zero
        intro z hz
        obtain ⟨w, hw, rfl⟩ := List.mem_map.1 hz
        rw [if_neg]
        rintro rfl
        exact hy hw
      rw [this]
    · have hne : ¬ x = y := by
        rintro rfl
        exact hy hm
      rw [if_neg hne, sum_indicator l x hnd' hm]

theorem length_by_node (l : List N) (hl : l.Nodup) : ∀ (tr : List (Ev N)), (∀ e ∈ tr, e.node ∈ l) →
    tr.length = (l.map (fun n => tr.countP (fun e => decide (e.node = n)))).sum
  | [], _ => by
    symm
    apply List.sum_eq_zero
    intro x hx
    obtain ⟨_, _, rfl⟩ := List.mem_map.1 hx
    rfl
  | e :: tr, h => by
    rw [List.length_cons, length_by_node l hl tr (fun x hx => h x (List.mem_cons_of_mem _ hx))]
    have h1 := sum_indicator l e.node hl (h e List.mem_cons_self)
    have h2 : (l.map (fun n => (e :: tr).countP (fun e => decide (e.node = n)))).sum =
        (l.map (fun n => tr.countP (fun e => decide (e.node = n)))).sum +
        (l.map (fun n => if e.node = n then 1 else 0)).sum := by
      rw [← List.sum_map_add]
      congr 1
      apply List.map_congr_left
      intro n _
      rw [List.countP_cons]
      simp
    rw [h2, h1]

theorem countP_node (n : N) : ∀ tr : List (Ev N), tr.countP (fun e => decide (e.node = n)) =
    tr.count (.skip n) + tr.count (.hand n) + tr.count (.good n) + tr.count (.bad n)
  | [] => rfl
  | e :: tr => by
    rw [List.countP_cons, countP_node n tr, List.count_cons, List.count_cons, List.count_cons,
      List.count_cons]
    cases e with
    | skip m => by_cases hm : m = n <;> simp [Ev.node, hm]; omega
    | hand m => by_cases hm : m = n <;> simp [Ev.node, hm]; omega
    | good m => by_cases hm : m = n <;> simp [Ev.node, hm]; omega
    | bad m => by_cases hm : m = n <;> simp [Ev.node, hm]; omega

/-- C24, termination of whole runs: the number of events of any execution is bounded by the graph and
the retry limits, so no execution can go on handing out blocks forever.  Partial: for consistent graphs
(`C24_false_asymmetric` has no consistent graph). -/
theorem C24_finite_partial (hg : g.OK) (h : Run g tr st) :
    tr.length ≤ (g.nodes.map (fun n => 2 * ((g.maxRetries (g.task n)).toNat + 1) + 1)).sum := by
  have hri := h.inv hg
  rw [length_by_node g.nodes hg.nodes_nodup tr hri.node]
  have hle : ∀ (l : List N) (a b : N → Nat), (∀ n, a n ≤ b n) → (l.map a).sum ≤ (l.map b).sum := by
    intro l a b hab
    induction l with
    | nil => exact le_refl _
    | cons x l ih =>
      rw [List.map_cons, List.map_cons, List.sum_cons, List.sum_cons]
      have := hab x
      omega
  apply hle
  intro n
  rw [countP_node]
  have h1 := hri.hands n
  have h2 := hri.bal n
  have h3 := hri.once n
  omega

/-- A legal call in a non-trivial reachable state. -/
example : ∃ st, Run Ex.vee [.hand 0, .hand 1, .bad 0] st ∧ Held [.hand 0, .hand 1, .bad 0] (1 : Fin 4) := by
  obtain ⟨tr, st, h, e⟩ := exec_map pickMin_legal (·.1) (g := Ex.vee)
    (v := [.hand 0, .hand 1, .bad 0]) (as := [.acq 0 [], .acq 0 [], .bad 0]) (by decide +kernel)
  simp only at e
  subst e
  exact ⟨st, h, by decide⟩

/-! ### C25 -/

/-- C25. `acquire_block` asks the check function about ready blocks of the task one after the other.
Every block that is accepted becomes an event `skip` (so it counts as completed and skipped, see
C19, and as completed for its downstream blocks, see `C19_queue_partial`); the returned block, if any, was
not accepted: the check function returned `False`, raised, or there is none. -/
theorem C25_check_function (hg : g.OK) (h : Run g tr st) (chk : Nat → N → Check) (t : T) :
    ∃ skips r st', st.acquireBlock g chk t = .ok (skips, r, st') ∧
      Run g (tr ++ acquireEvents skips r) st' ∧
      (∀ i x, skips[i]? = some x → chk i x = .accept ∧ g.task x = t ∧
        Ready g (tr ++ (skips.take i).map .skip) x ∧ Done (tr ++ acquireEvents skips r) x ∧
        .hand x ∉ acquireEvents skips r) ∧
      (∀ n, r = some n → (chk skips.length n = .reject ∨ chk skips.length n = .raises) ∧
        Held (tr ++ acquireEvents skips r) n) := by
  obtain ⟨skips, r, st', f1, f2, f3, f4, _⟩ := (h.inv hg).acquire hg chk t
  have hrun := Run.acquire chk t h f1
  refine ⟨skips, r, st', f1, hrun, ?_, ?_⟩
  · intro i x hx
    obtain ⟨a1, a2, a3⟩ := f3 i x hx
    have hmem : x ∈ skips := List.mem_of_getElem? hx
    refine ⟨a3, a2, a1, ?_, ?_⟩
    · right
      exact List.mem_append_right _ (List.mem_append_left _ (List.mem_map_of_mem hmem))
    · intro hh
      rcases List.mem_append.1 hh with hh | hh
      · obtain ⟨_, _, e⟩ := List.mem_map.1 hh
        cases e
      · rcases r with _ | n
        · simp at hh
        · simp at hh
          subst hh
          exact (f4 x rfl).1.2.2.1 (Or.inr (List.mem_append_right _ (List.mem_map_of_mem hmem)))
  · rintro n rfl
    obtain ⟨a1, a2, a3⟩ := f4 n rfl
    refine ⟨?_, (C15_task hg h f1).2.2⟩
    cases hq : chk skips.length n
    · exact absurd hq a3
    · exact Or.inl rfl
    · exact Or.inr rfl

/-- A skipped block releases its downstream blocks as a processed block does: what is queued
afterwards depends only on which blocks are `Done`, which both kinds of completion contribute to. -/
theorem C25_skip_like_success (hg : g.OK) {tr' : List (Ev N)} {st' : Sched N T K} (h : Run g tr st)
    (h' : Run g tr' st') (hd : ∀ n, Done tr n ↔ Done tr' n) (hx : ∀ n, Dead g tr n ↔ Dead g tr' n)
    (hh : ∀ n, Held tr n ↔ Held tr' n) (t : T) (n : N) :
    n ∈ (st.queues t).rootGen ++ (st.queues t).readyQueue ↔
      n ∈ (st'.queues t).rootGen ++ (st'.queues t).readyQueue := by
  rw [(C19_queue_partial hg h t).2, (C19_queue_partial hg h' t).2]
  unfold Ready
  simp only [hd, hx, hh]

/-- In the example history, block `3` is skipped in an `acquire_block` call that returns nothing, and
the same state of completion is reached by processing it. -/
example : ∃ tr st tr' st', Run Ex.vee tr st ∧ Run Ex.vee tr' st' ∧ Ev.skip 3 ∈ tr ∧ Ev.skip 3 ∉ tr' ∧
    (∀ n, Done tr n ↔ Done tr' n) ∧ (∀ n, Dead Ex.vee tr n ↔ Dead Ex.vee tr' n) ∧
    (∀ n, Held tr n ↔ Held tr' n) := by
  obtain ⟨st, h⟩ := Ex.vee_run
  obtain ⟨tr', st', h', e⟩ := exec_map pickMax_legal (·.1) (g := Ex.vee)
    (v := [.hand 0, .bad 0, .hand 1, .good 1, .hand 0, .bad 0, .hand 3, .bad 3, .hand 3, .good 3])
    (as := [.acq 0 [], .bad 0, .acq 0 [], .good 1, .acq 0 [], .bad 0, .acq 1 [], .bad 3, .acq 1 [],
      .good 3]) (by decide +kernel)
  simp only at e
  subst e
  exact ⟨_, st, _, st', h, h', by decide, by decide, by decide, by decide, by decide⟩

/-! ### C26 -/

/-- C26. A task is listed by `get_ready_tasks` iff it has a block that can be handed out now. -/
theorem C26_ready_tasks (hg : g.OK) (h : Run g tr st) (t : T) :
    t ∈ st.getReadyTasks g ↔ ∃ n, g.task n = t ∧ Ready g tr n := by
  unfold Sched.getReadyTasks
  rw [List.mem_filter, decide_eq_true_eq, mem_stateKeys hg]
  have h0 := ready_nonneg hg h t
  have h1 := ready_zero_iff hg h t
  constructor
  · rintro ⟨_, h2⟩
    by_contra hc
    push Not at hc
    have := h1.2 hc
    omega
  · rintro ⟨n, h2, h3⟩
    refine ⟨h2 ▸ hg.task_mem n h3.1, ?_⟩
    by_contra hc
    exact h1.1 (by omega) n h2 h3

/-- C26. `acquire_block` returns `None` only if at return the task has no ready block and its ready
count is zero (as the server asserts); if the task is not listed by `get_ready_tasks`, it returns
`None` and changes nothing observable; if it is listed, it hands out or skips at least one block. -/
theorem C26_acquire_none (hg : g.OK) (h : Run g tr st) {chk : Nat → N → Check} {t : T}
    {skips : List N} {r : Option N} {st' : Sched N T K}
    (hacq : st.acquireBlock g chk t = .ok (skips, r, st')) :
    (r = none → (st'.states t).ready = 0 ∧
      ∀ n, g.task n = t → ¬ Ready g (tr ++ acquireEvents skips r) n) ∧
    (t ∈ st.getReadyTasks g ↔ skips ≠ [] ∨ r ≠ none) := by
  obtain ⟨s', r', st2, f1, f2, f3, f4, f5⟩ := (h.inv hg).acquire hg chk t
  rw [f1] at hacq
  cases hacq
  constructor
  · rintro rfl
    refine ⟨(f5 rfl).1, ?_⟩
    intro n hn hr
    refine (f5 rfl).2 n hn ?_
    simpa [acquireEvents] using hr
  · rw [C26_ready_tasks hg h]
    constructor
    · rintro ⟨n, h1, h2⟩
      by_contra hc
      rw [not_or, not_not, not_not] at hc
      obtain ⟨rfl, rfl⟩ := hc
      exact (f5 rfl).2 n h1 (by simpa using h2)
    · rintro (h1 | h1)
      · rcases skips with _ | ⟨x, l⟩
        · exact absurd rfl h1
        · obtain ⟨a1, a2, _⟩ := f3 0 x rfl
          exact ⟨x, a2, by simpa using a1⟩
      · rcases r with _ | n
        · exact absurd rfl h1
        · rcases skips with _ | ⟨x, l⟩
          · obtain ⟨a1, a2, _⟩ := f4 n rfl
            exact ⟨n, a2, by simpa using a1⟩
          · obtain ⟨a1, a2, _⟩ := f3 0 x rfl
            exact ⟨x, a2, by simpa using a1⟩

/-- Both cases occur: initially task 0 of `vee` is listed and task 1 is not. -/
example : 0 ∈ (Sched.init Ex.vee).getReadyTasks Ex.vee ∧ 1 ∉ (Sched.init Ex.vee).getReadyTasks Ex.vee := by
  decide

/-! ### C28 -/

/-- C28, what holds always: a block in the surface has completed, a block in the boundary has failed
permanently or is an orphan; a completed block with a downstream block that can still be processed is
in the surface. After a run without permanent failures the boundary is empty. -/
theorem C28_contents (hg : g.OK) (h : Run g tr st) :
    (∀ n ∈ st.rs.surface, Done tr n) ∧ (∀ n ∈ st.rs.boundary, Dead g tr n ∨ Orphan g tr n) ∧
    (∀ n d, Done tr n → d ∈ g.down n → ¬ Done tr d → ¬ Dead g tr d → ¬ Orphan g tr d →
      n ∈ st.rs.surface) ∧
    ((∀ n, ¬ Dead g tr n) → st.rs.boundary = ∅) := by
  obtain ⟨c, hi⟩ := (h.inv hg).inv
  refine ⟨hi.rs.surf, fun n hn => (hi.rs.bdry n hn).2, fun n d h1 h2 h3 h4 h5 =>
    hi.rs.keep n h1 d h2 h3 h4 h5, ?_⟩
  intro hd
  rw [Finset.eq_empty_iff_forall_notMem]
  intro n hn
  rcases (hi.rs.bdry n hn).2 with h1 | ⟨f, h1, _⟩
  · exact hd n h1
  · exact hd f h1

/-- C28, partial. The full claim is for all graphs and is false (`C28_false`). If every block has at
most one downstream block, a completed block is retained in the surface only as long as one of its
downstream blocks is unfinished; after a complete run without permanent failures the surface and the
boundary are empty. -/
theorem C28_dropped_partial (hg : g.OK) (hone : ∀ m ∈ g.nodes, (g.down m).length ≤ 1)
    (h : Run g tr st) :
    (∀ n ∈ st.rs.surface, ∃ d ∈ g.down n, ¬ Done tr d ∧ ¬ Dead g tr d) ∧
    ((∀ n ∈ g.nodes, Done tr n) → st.rs.surface = ∅ ∧ st.rs.boundary = ∅) := by
  obtain ⟨c, hi⟩ := (h.inv hg).inv
  have ht := hi.tight hone
  refine ⟨ht, ?_⟩
  intro hall
  constructor
  · rw [Finset.eq_empty_iff_forall_notMem]
    intro n hn
    obtain ⟨d, h1, h2, _⟩ := ht n hn
    exact h2 (hall d (hg.down_mem n (hi.rs.sNode n (hi.rs.surf n hn)) d h1))
  · exact (C28_contents hg h).2.2.2 (fun n hn =>
      hi.rs.disj n (hall n (hi.rs.fNode n hn)) hn)

/-- C28 is false in general: after a complete successful run on a block with two downstream blocks
without further dependents, the block is still in the surface. -/
theorem C28_false : ∃ (g : DGraph (Fin 3) (Fin 1) (Fin 3)) (tr : List (Ev (Fin 3)))
    (st : Sched (Fin 3) (Fin 1) (Fin 3)), g.OK ∧ Run g tr st ∧ (∀ n ∈ g.nodes, Done tr n) ∧
    0 ∈ st.rs.surface := by
  have hok : (finGraph 3 1 (fun n => if n = 0 then [] else [0]) (fun _ => 0) (fun _ => 0) [0]).OK :=
    finGraph_ok (by decide) (by decide) (by decide) (by decide)
  have hx : (exec (finGraph 3 1 (fun n => if n = 0 then [] else [0]) (fun _ => 0) (fun _ => 0) [0])
      pickMin [.acq 0 [], .good 0, .acq 0 [], .acq 0 [], .good 1, .good 2]).map
      (fun p => (p.1, decide (0 ∈ p.2.rs.surface))) =
      some ([.hand 0, .good 0, .hand 1, .hand 2, .good 1, .good 2], true) := by decide +kernel
  obtain ⟨tr, st, h, e⟩ := exec_map pickMin_legal _ hx
  simp only [Prod.mk.injEq, decide_eq_true_eq] at e
  obtain ⟨rfl, e⟩ := e
  exact ⟨_, _, st, hok, h, by decide, e⟩

/-- A chain of three blocks meets the hypothesis of the partial theorem and has a complete run. -/
example : ∃ (g : DGraph (Fin 3) (Fin 1) (Fin 3)) (tr : List (Ev (Fin 3)))
    (st : Sched (Fin 3) (Fin 1) (Fin 3)), g.OK ∧ (∀ m ∈ g.nodes, (g.down m).length ≤ 1) ∧ Run g tr st ∧
    (∀ n ∈ g.nodes, Done tr n) := by
  have hok : (finGraph 3 1 (fun n => match n with | 0 => [] | 1 => [0] | 2 => [1]) (fun _ => 0)
      (fun _ => 0) [0]).OK := finGraph_ok (by decide) (by decide) (by decide) (by decide)
  have hx : (exec (finGraph 3 1 (fun n => match n with | 0 => [] | 1 => [0] | 2 => [1]) (fun _ => 0)
      (fun _ => 0) [0]) pickMin [.acq 0 [], .good 0, .acq 0 [], .good 1, .acq 0 [], .good 2]).map
      (·.1) = some [.hand 0, .good 0, .hand 1, .good 1, .hand 2, .good 2] := by decide +kernel
  obtain ⟨tr, st, h, e⟩ := exec_map pickMin_legal _ hx
  simp only at e
  subst e
  exact ⟨_, _, st, hok, by decide, h, by decide⟩

end Verif
