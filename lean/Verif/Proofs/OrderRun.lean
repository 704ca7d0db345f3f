import Verif.Proofs.OrderSurface
import Verif.Proofs.Run

/-! # The scheduler on reordered graphs (lemmas) -/

namespace Verif
open Spec Verif.Order

variable {N T K : Type} [DecidableEq N] [DecidableEq T] [DecidableEq K] {g g' : DGraph N T K}

omit [DecidableEq N] [DecidableEq T] [DecidableEq K] in
theorem Sched.ext' {a b : Sched N T K} (h1 : a.rs = b.rs) (h2 : a.queues = b.queues) (h3 : a.states = b.states) :
    a = b := by
  cases a; cases b; simp_all

omit [DecidableEq K] in
theorem updateReadyQueue_same (h : g'.task = g.task) {ns ns' : List N}
    (hf : ∀ t, ns'.filter (fun x => g.task x = t) = ns.filter (fun x => g.task x = t)) (st : Sched N T K) :
    st.updateReadyQueue g' ns' = st.updateReadyQueue g ns := by
  obtain ⟨a1, a2, a3⟩ := Sched.updateReadyQueue_spec (g := g) ns st
  obtain ⟨b1, b2, b3⟩ := Sched.updateReadyQueue_spec (g := g') ns' st
  refine Sched.ext' (b1.trans a1.symm) (funext fun t => ?_) (funext fun t => ?_)
  · rw [b2, a2, h, hf]
  · rw [b3, a3, h, hf]

omit [DecidableEq N] in
theorem removeFromProcessing_shuffled (h : Shuffled g g') (st : Sched N T K) (n : N) :
    st.removeFromProcessing g' n = st.removeFromProcessing g n := by
  unfold Sched.removeFromProcessing
  rw [h.key, h.task]

/-- Releasing a block that succeeded. -/
theorem release_success_reordered (h : Reordered g g') (hg : g.OK) {n : N} (hn : n ∈ g.nodes)
    (pick pick' : Nat → Finset N → N) (st : Sched N T K) :
    st.releaseBlock g' pick' n .success = st.releaseBlock g pick n .success := by
  unfold Sched.releaseBlock
  rw [removeFromProcessing_shuffled h.toShuffled]
  rcases st.removeFromProcessing g n with e | st1
  · rfl
  · simp only
    rcases RS.markSuccess_reordered h hg hn st1.rs with ⟨e, h1, h2⟩ | ⟨r, r', rs', h1, h2, h3⟩
    · rw [h1, h2]
    · rw [h1, h2, h.task]
      exact congrArg Except.ok (updateReadyQueue_same h.task h3 _)

/-- Releasing a block that failed. -/
theorem release_failed_reordered (h : Reordered g g') (hg : g.OK) {n : N} (hn : n ∈ g.nodes)
    {pick pick' : Nat → Finset N → N} {st a b : Sched N T K} (h1 : st.releaseBlock g pick n .failed = .ok a)
    (h2 : st.releaseBlock g' pick' n .failed = .ok b) : b = a := by
  unfold Sched.releaseBlock at h1 h2
  rw [removeFromProcessing_shuffled h.toShuffled] at h2
  rcases hr : st.removeFromProcessing g n with e | st1
  · rw [hr] at h1; cases h1
  · rw [hr] at h1 h2
    simp only [h.task, h.key, h.maxRetries] at h1 h2
    split at h1
    · next hm =>
      rw [if_pos hm] at h2
      rcases m1 : st1.rs.markFailure g pick n with e | ⟨o, r⟩
      · rw [m1] at h1; cases h1
      rcases m2 : st1.rs.markFailure g' pick' n with e | ⟨o', r'⟩
      · rw [m2] at h2; cases h2
      rw [m1] at h1
      rw [m2] at h2
      obtain ⟨rfl, rfl⟩ := RS.markFailure_reordered h hg hn m1 m2
      simp only [Except.ok.injEq] at h1 h2
      rw [← h1, ← h2]
      unfold Sched.countOrphans
      rw [h.task]
    · next hm =>
      rw [if_neg hm] at h2
      simp only [Except.ok.injEq] at h1 h2
      rw [← h1, ← h2]
      unfold Sched.queueReadyBlock
      rw [h.task]

/-- The blocks reported as orphans. -/
theorem orphansOf_reordered (h : Reordered g g') (hg : g.OK) {n : N} (hn : n ∈ g.nodes)
    {pick pick' : Nat → Finset N → N} {st a b : Sched N T K} {s : BlockStatus}
    (h1 : st.releaseBlock g pick n s = .ok a) (h2 : st.releaseBlock g' pick' n s = .ok b) :
    st.orphansOf g' pick' n s = st.orphansOf g pick n s := by
  unfold Sched.orphansOf
  unfold Sched.releaseBlock at h1 h2
  rw [removeFromProcessing_shuffled h.toShuffled] at h2 ⊢
  rcases hr : st.removeFromProcessing g n with e | st1
  · rfl
  · rw [hr] at h1 h2
    cases s
    all_goals first | rfl | skip
    simp only [h.task, h.key, h.maxRetries] at h1 h2 ⊢
    split at h1
    · next hm =>
      rw [if_pos hm] at h2
      rw [if_pos hm, if_pos hm]
      rcases m1 : st1.rs.markFailure g pick n with e | ⟨o, r⟩
      · rw [m1] at h1; cases h1
      rcases m2 : st1.rs.markFailure g' pick' n with e | ⟨o', r'⟩
      · rw [m2] at h2; cases h2
      obtain ⟨rfl, rfl⟩ := RS.markFailure_reordered h hg hn m1 m2
      rfl
    · next hm =>
      rw [if_neg hm, if_neg hm]

/-- Acquiring a block. -/
theorem acquireLoop_reordered (h : Reordered g g') (hg : g.OK) (t : T) (chk : Nat → N → Check) :
    ∀ (fuel k : Nat) (tr : List (Ev N)) (st : Sched N T K) (acc : List N), RunInv g tr st →
      Sched.acquireLoop g' t fuel chk k st acc = Sched.acquireLoop g t fuel chk k st acc
  | 0, _, _, _, _, _ => rfl
  | fuel + 1, k, tr, st, acc, hr => by
    unfold Sched.acquireLoop
    rcases hget : (st.queues t).getNext with e | ⟨_ | n, q⟩
    · rfl
    · rfl
    · simp only
      obtain ⟨hready, ht, hhand, hskip⟩ := hr.pop_hand hg hget
      rw [h.key]
      split
      · rw [release_success_reordered h hg hready.1 (fun _ _ => n) (fun _ _ => n)]
        obtain ⟨st3, e1, e2⟩ := hskip _ rfl (fun _ _ => n)
        rw [e1]
        exact acquireLoop_reordered h hg t chk fuel (k + 1) _ st3 _ e2
      · rfl

theorem acquire_reordered (h : Reordered g g') (hg : g.OK) {tr : List (Ev N)} {st : Sched N T K} (hr : RunInv g tr st)
    (t : T) (chk : Nat → N → Check) : st.acquireBlock g' chk t = st.acquireBlock g chk t := by
  unfold Sched.acquireBlock
  rw [h.nodes]
  exact acquireLoop_reordered h hg t chk _ _ tr st _ hr

omit [DecidableEq N] [DecidableEq K] in
theorem init_shuffled (h : Shuffled g g') : Sched.init g' = Sched.init g := by
  unfold Sched.init
  rw [h.total, h.tasks, h.rootTasks, h.numRoots, h.rootGen]

omit [DecidableEq N] [DecidableEq T] [DecidableEq K] in
theorem keeps_back {D : N → N → Prop} (hD : ∀ x y, D x y → D y x) {l l' : List N} (hp : l.Perm l') (hn : l.Nodup)
    (h : ∀ x y, D x y → Precedes l x y → Precedes l' x y) : ∀ x y, D x y → Precedes l' x y → Precedes l x y := by
  intro x y hd hb
  have hn' := hp.nodup_iff.1 hn
  obtain ⟨hx, hy⟩ := precedes_mem hb
  have hne : x ≠ y := by
    rintro rfl
    exact precedes_asymm hn' hb hb
  rcases precedes_total (hp.symm.subset hx) (hp.symm.subset hy) hne with h1 | h1
  · exact h1
  · exact absurd hb (precedes_asymm hn' (h y x (hD x y hd) h1))

omit [DecidableEq N] [DecidableEq T] [DecidableEq K] in
theorem reordered_symm (h : Reordered g g') (hg : g.OK) : Reordered g' g := by
  have hl : ∀ x y, x ∈ g.nodes → y ∈ g.nodes → (Linked g' x y ↔ Linked g x y) := fun x y hx hy => by
    unfold Linked
    rw [h.mem_up hy, h.mem_up hx]
  refine ⟨h.toShuffled.symm, ?_, ?_, ?_⟩
  · rw [h.nodes]
    intro n hn x y hd hb
    obtain ⟨hx, hy⟩ := precedes_mem hb
    refine keeps_back (D := Linked g) (fun _ _ => Or.symm) (h.up n hn) (hg.up_nodup n hn) (h.linked_up n hn) x y ?_ hb
    exact (hl x y (hg.up_mem n hn x ((h.mem_up hn).1 hx)) (hg.up_mem n hn y ((h.mem_up hn).1 hy))).1 hd
  · rw [h.nodes]
    intro n hn x y hd hb
    obtain ⟨hx, hy⟩ := precedes_mem hb
    refine keeps_back (D := Linked g) (fun _ _ => Or.symm) (h.down n hn) (hg.down_nodup n hn) (h.linked_down n hn) x y ?_ hb
    exact (hl x y (hg.down_mem n hn x ((h.mem_down hn).1 hx)) (hg.down_mem n hn y ((h.mem_down hn).1 hy))).1 hd
  · rw [h.nodes, h.task]
    intro n hn
    exact keeps_back (D := fun x y => g.task x = g.task y) (fun _ _ => Eq.symm) (h.down n hn) (hg.down_nodup n hn)
      (h.task_down n hn)

omit [DecidableEq N] [DecidableEq T] [DecidableEq K] in
theorem reordered_refl (g : DGraph N T K) : Reordered g g :=
  ⟨⟨rfl, fun _ _ => List.Perm.refl _, fun _ _ => List.Perm.refl _⟩, fun _ _ _ _ _ h => h, fun _ _ _ _ _ h => h,
    fun _ _ _ _ _ h => h⟩

/-- Every run is a run of the reordered graph, with any way to pop. -/
theorem run_reordered (h : Reordered g g') (hg : g.OK) {pick' : Nat → Finset N → N} (hp' : LegalPick pick')
    {tr : List (Ev N)} {st : Sched N T K} (hr : Run g tr st) : Run g' tr st := by
  have hg' := h.toShuffled.ok hg
  induction hr with
  | init => rw [← init_shuffled h.toShuffled]; exact .init
  | acquire chk t hr he ih =>
    rw [← acquire_reordered h hg (hr.inv hg)] at he
    exact .acquire chk t ih he
  | good pick hr hh hp he ih =>
    rw [← release_success_reordered h hg ((hr.inv hg).inv.choose_spec.hNode _ hh) pick pick] at he
    exact .good pick ih hh hp he
  | bad pick hr hh hp he ih =>
    obtain ⟨b, hb, _⟩ := (ih.inv hg').release_bad hg' hh hp'
    have := release_failed_reordered h hg ((hr.inv hg).inv.choose_spec.hNode _ hh) he hb
    subst this
    exact .bad pick' ih hh hp' hb

end Verif
