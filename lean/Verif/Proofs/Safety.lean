import Verif.Spec.History
import Verif.Proofs.Run

/-! # Dependency order in arbitrary graphs

The invariant here needs nothing of the graph except that root generators yield only blocks without
upstream blocks; in particular it does not need `downstream` to be the inverse of `upstream`. -/

set_option linter.unusedSectionVars false

namespace Verif

open Spec

variable {N T K : Type} [DecidableEq N] [DecidableEq T] [DecidableEq K] {g : DGraph N T K}

namespace RS

theorem cleanUp_sub {rs rs' : RS N} {u : N} (h : cleanUp g rs u = .ok rs') :
    rs'.surface ⊆ rs.surface := by
  unfold cleanUp at h
  dsimp only at h
  split at h
  · split at h
    · cases h
    · rename_i s hs
      cases h
      rw [(foldRemove (g := g) _ _).1]
      unfold setRemove at hs
      split at hs
      · cases hs; exact Finset.erase_subset _ _
      · cases hs
  · cases h; exact Finset.Subset.refl _

theorem cleanUps_sub : ∀ (us : List N) {rs rs' : RS N}, cleanUps g us rs = .ok rs' →
    rs'.surface ⊆ rs.surface
  | [], _, _, h => by cases h; exact Finset.Subset.refl _
  | u :: us, rs, rs', h => by
    unfold cleanUps at h
    split at h
    · cases h
    · rename_i h1
      exact (cleanUps_sub us h).trans (cleanUp_sub h1)

theorem addToBoundary_surface (rs : RS N) (m : N) : (addToBoundary g rs m).2.surface = rs.surface := by
  unfold addToBoundary
  split <;> rfl

theorem scanDown_sub : ∀ (ms : List N) (rs : RS N) (ready : List N),
    (scanDown g ms rs ready).2.surface = rs.surface ∧
    ∀ m ∈ (scanDown g ms rs ready).1, m ∈ ready ∨ ∀ u ∈ g.up m, u ∈ rs.surface
  | [], rs, ready => ⟨rfl, fun m hm => Or.inl hm⟩
  | m :: ms, rs, ready => by
    unfold scanDown
    have hs := addToBoundary_surface (g := g) rs m
    split
    · rename_i rs' he
      rw [he] at hs
      obtain ⟨h1, h2⟩ := scanDown_sub ms rs' ready
      dsimp only at hs
      rw [hs] at h1 h2
      exact ⟨h1, h2⟩
    · rename_i rs' he
      rw [he] at hs
      dsimp only at hs
      split
      · rename_i hall
        obtain ⟨h1, h2⟩ := scanDown_sub ms rs' (ready ++ [m])
        rw [hs] at h1 h2 hall
        refine ⟨h1, fun x hx => ?_⟩
        rcases h2 x hx with h | h
        · rcases List.mem_append.1 h with h | h
          · exact Or.inl h
          · rw [List.mem_singleton] at h
            exact Or.inr (h ▸ hall)
        · exact Or.inr h
      · obtain ⟨h1, h2⟩ := scanDown_sub ms rs' ready
        rw [hs] at h1 h2
        exact ⟨h1, h2⟩

theorem markSuccess_sub {rs rs' : RS N} {n : N} {ready : List N}
    (h : markSuccess g rs n = .ok (ready, rs')) :
    (∀ x ∈ rs'.surface, x = n ∨ x ∈ rs.surface) ∧
    ∀ m ∈ ready, ∀ u ∈ g.up m, u = n ∨ u ∈ rs.surface := by
  unfold markSuccess at h
  dsimp only at h
  split at h
  · cases h
  · obtain ⟨h1, h2⟩ := scanDown_sub (g := g) (g.down n) { rs with surface := insert n rs.surface } []
    rcases hsc : scanDown g (g.down n) { rs with surface := insert n rs.surface } [] with ⟨rd, rs2⟩
    rw [hsc] at h h1 h2
    dsimp only at h h1 h2
    have hready : ∀ m ∈ rd, ∀ u ∈ g.up m, u = n ∨ u ∈ rs.surface := by
      intro m hm u hu
      rcases h2 m hm with h | h
      · cases h
      · exact Finset.mem_insert.1 (h u hu)
    split at h
    · cases h
    · rename_i rs3 h3
      have hsub := cleanUps_sub _ h3
      rw [h1] at hsub
      split at h
      · split at h
        · cases h
        · rename_i s hs
          cases h
          refine ⟨fun x hx => ?_, hready⟩
          unfold setRemove at hs
          split at hs
          · cases hs
            exact Finset.mem_insert.1 (hsub (Finset.mem_of_mem_erase hx))
          · cases hs
      · cases h
        exact ⟨fun x hx => Finset.mem_insert.1 (hsub hx), hready⟩

theorem orphanLoop_surface_eq (pick : Nat → Finset N → N) : ∀ (fuel k : Nat) (work : Finset N) (rs : RS N)
    (orphans : Finset N) {o' : Finset N} {rs' : RS N},
    orphanLoop g pick fuel k work rs orphans = .ok (o', rs') → rs'.surface = rs.surface
  | 0, _, _, _, _, _, _, h => by cases h
  | fuel + 1, k, work, rs, orphans, o', rs', h => by
    unfold orphanLoop at h
    have hs := addToBoundary_surface (g := g) rs (pick k work)
    split at h
    · cases h; rfl
    · dsimp only at h
      split at h
      · cases h
      · split at h
        · rename_i r he
          rw [he] at hs
          exact (orphanLoop_surface_eq pick fuel _ _ _ _ h).trans hs
        · rename_i r he
          rw [he] at hs
          exact (orphanLoop_surface_eq pick fuel _ _ _ _ h).trans hs

theorem markFailure_sub {rs rs' : RS N} {n : N} {pick : Nat → Finset N → N} {o : Finset N}
    (h : markFailure g pick rs n = .ok (o, rs')) : rs'.surface ⊆ rs.surface := by
  unfold markFailure at h
  dsimp only at h
  split at h
  · cases h
  · split at h
    · cases h
    · rename_i o2 rs2 h2
      have e := orphanLoop_surface_eq pick _ _ _ _ _ h2
      dsimp only at e
      split at h
      · cases h
      · rename_i rs3 h3
        have hsub := cleanUps_sub _ h3
        rw [e] at hsub
        split at h
        · split at h
          · cases h
          · cases h; exact hsub
        · cases h; exact hsub

end RS

namespace Sched

/-- What is known of a scheduler relative to a set `D` of completed blocks. -/
structure Safe (g : DGraph N T K) (st : Sched N T K) (D : N → Prop) : Prop where
  surface : ∀ x ∈ st.rs.surface, D x
  queued : ∀ t, ∀ n ∈ (st.queues t).readyQueue, ∀ u ∈ g.up n, D u
  roots : ∀ t, ∀ n ∈ (st.queues t).rootGen, g.up n = []

theorem Safe.mono {st : Sched N T K} {D D' : N → Prop} (h : Safe g st D) (hd : ∀ x, D x → D' x) :
    Safe g st D' :=
  ⟨fun x hx => hd x (h.surface x hx), fun t n hn u hu => hd u (h.queued t n hn u hu), h.roots⟩

theorem Safe.of_eq {st st' : Sched N T K} {D : N → Prop} (h : Safe g st D) (h1 : st'.rs = st.rs)
    (h2 : ∀ t, (st'.queues t).readyQueue = (st.queues t).readyQueue)
    (h3 : ∀ t, (st'.queues t).rootGen = (st.queues t).rootGen) : Safe g st' D :=
  ⟨fun x hx => h.surface x (h1 ▸ hx), fun t n hn => h.queued t n (h2 t ▸ hn),
    fun t n hn => h.roots t n (h3 t ▸ hn)⟩

theorem Safe.init (hroot : ∀ t ∈ g.rootTasks, ∀ n ∈ g.rootGen t, g.up n = []) :
    Safe g (Sched.init g) (fun _ => False) := by
  have key : ∀ (l : List T) (st : Sched N T K), (∀ t ∈ l, t ∈ g.rootTasks) →
      Safe g st (fun _ => False) → Safe g (l.foldl (fun st t =>
        (st.modState t (fun s => { s with ready := s.ready + g.numRoots t })).modQueue t
          (fun _ => PQueue.init (g.numRoots t) (g.rootGen t))) st) (fun _ => False) := by
    intro l
    induction l with
    | nil => exact fun st _ h => h
    | cons t l ih =>
      intro st hl h
      rw [List.foldl_cons]
      apply ih _ (fun x hx => hl x (List.mem_cons_of_mem _ hx))
      refine ⟨h.surface, ?_, ?_⟩
      · intro t' n hn
        rw [modQueue_queues] at hn
        split at hn
        · cases hn
        · exact h.queued t' n hn
      · intro t' n hn
        rw [modQueue_queues] at hn
        split at hn
        · exact hroot t (hl t List.mem_cons_self) n hn
        · exact h.roots t' n hn
  have key2 : ∀ (l : List T) (st : Sched N T K), Safe g st (fun _ => False) →
      Safe g (l.foldl (fun st t => st.modState t (fun s => { s with total := g.total t })) st)
        (fun _ => False) := by
    intro l
    induction l with
    | nil => exact fun st h => h
    | cons t l ih => exact fun st h => ih _ (h.of_eq rfl (fun _ => rfl) (fun _ => rfl))
  unfold Sched.init
  apply key2
  apply key _ _ (fun _ h => h)
  refine ⟨fun x hx => ?_, fun t n hn => ?_, fun t n hn => ?_⟩
  · cases hx
  · cases hn
  · cases hn

theorem Safe.queue {st : Sched N T K} {D : N → Prop} (h : Safe g st D) {n : N}
    (hn : ∀ u ∈ g.up n, D u) : Safe g (st.queueReadyBlock g n) D := by
  refine ⟨h.surface, ?_, ?_⟩
  · intro t m hm
    simp only [queueReadyBlock, modState_queues, modQueue_queues] at hm
    split at hm
    · rcases List.mem_append.1 hm with hm | hm
      · exact h.queued _ m hm
      · rw [List.mem_singleton] at hm
        exact hm ▸ hn
    · exact h.queued t m hm
  · intro t m hm
    simp only [queueReadyBlock, modState_queues, modQueue_queues] at hm
    split at hm
    · exact h.roots _ m hm
    · exact h.roots t m hm

theorem Safe.update : ∀ (ns : List N) {st : Sched N T K} {D : N → Prop}, Safe g st D →
    (∀ n ∈ ns, ∀ u ∈ g.up n, D u) → Safe g (st.updateReadyQueue g ns) D
  | [], _, _, h, _ => h
  | n :: ns, _, _, h, hn => Safe.update ns (h.queue (hn n List.mem_cons_self))
      (fun m hm => hn m (List.mem_cons_of_mem _ hm))

theorem Safe.removeProc {st st1 : Sched N T K} {D : N → Prop} (h : Safe g st D) {n : N}
    (hr : st.removeFromProcessing g n = .ok st1) : Safe g st1 D := by
  unfold removeFromProcessing at hr
  split at hr
  · cases hr
    refine h.of_eq rfl ?_ ?_
    · intro t
      simp only [modState_queues, modQueue_queues]
      split
      · rename_i e; rw [e]
      · rfl
    · intro t
      simp only [modState_queues, modQueue_queues]
      split
      · rename_i e; rw [e]
      · rfl
  · cases hr

theorem Safe.good {st st' : Sched N T K} {D : N → Prop} (h : Safe g st D) {n : N}
    {pick : Nat → Finset N → N} (hr : st.releaseBlock g pick n .success = .ok st') :
    Safe g st' (fun x => D x ∨ x = n) := by
  unfold releaseBlock at hr
  split at hr
  · cases hr
  · rename_i st1 h1
    have hs := h.removeProc h1
    dsimp only at hr
    split at hr
    · cases hr
    · rename_i nb rs' hm
      cases hr
      obtain ⟨e1, e2⟩ := RS.markSuccess_sub hm
      apply Safe.update
      · refine ⟨fun x hx => ?_, fun t m hm u hu => Or.inl (hs.queued t m hm u hu), hs.roots⟩
        rcases e1 x hx with h | h
        · exact Or.inr h
        · exact Or.inl (hs.surface x h)
      · intro m hm u hu
        rcases e2 m hm u hu with h | h
        · exact Or.inr h
        · exact Or.inl (hs.surface u h)

theorem Safe.bad {st st' : Sched N T K} {D : N → Prop} (h : Safe g st D) {n : N}
    (hn : ∀ u ∈ g.up n, D u) {pick : Nat → Finset N → N}
    (hr : st.releaseBlock g pick n .failed = .ok st') : Safe g st' D := by
  unfold releaseBlock at hr
  split at hr
  · cases hr
  · rename_i st1 h1
    have hs := h.removeProc h1
    dsimp only at hr
    split at hr
    · split at hr
      · cases hr
      · rename_i o rs' hm
        cases hr
        have hsub := RS.markFailure_sub hm
        exact ⟨fun x hx => hs.surface x (hsub hx), hs.queued, hs.roots⟩
    · cases hr
      refine (hs.queue hn).of_eq rfl ?_ ?_
      · intro t
        simp only [modQueue_queues]
        split
        · rename_i e; rw [e]
        · rfl
      · intro t
        simp only [modQueue_queues]
        split
        · rename_i e; rw [e]
        · rfl

theorem Safe.next {st : Sched N T K} {D : N → Prop} (h : Safe g st D) {t : T} {r : Option N}
    {q : PQueue N K} (hq : (st.queues t).getNext = .ok (r, q)) :
    Safe g (st.modQueue t (fun _ => q)) D ∧ ∀ n, r = some n → ∀ u ∈ g.up n, D u := by
  have hsub : (∀ n ∈ q.readyQueue, n ∈ (st.queues t).readyQueue) ∧
      (∀ n ∈ q.rootGen, n ∈ (st.queues t).rootGen) ∧
      ∀ n, r = some n → n ∈ (st.queues t).readyQueue ∨ n ∈ (st.queues t).rootGen := by
    unfold PQueue.getNext at hq
    split at hq
    · split at hq
      · split at hq
        · cases hq
        · rename_i m gen hg
          cases hq
          rw [hg]
          exact ⟨fun _ h => h, fun _ h => List.mem_cons_of_mem _ h,
            fun n hn => by cases hn; exact Or.inr List.mem_cons_self⟩
      · split at hq
        · cases hq
        · rename_i m rest hg
          cases hq
          rw [hg]
          exact ⟨fun _ h => List.mem_cons_of_mem _ h, fun _ h => h,
            fun n hn => by cases hn; exact Or.inl List.mem_cons_self⟩
    · cases hq
      exact ⟨fun _ h => h, fun _ h => h, fun n hn => by cases hn⟩
  refine ⟨⟨h.surface, ?_, ?_⟩, ?_⟩
  · intro t' n hn
    rw [modQueue_queues] at hn
    split at hn
    · exact h.queued t n (hsub.1 n hn)
    · exact h.queued t' n hn
  · intro t' n hn
    rw [modQueue_queues] at hn
    split at hn
    · exact h.roots t n (hsub.2.1 n hn)
    · exact h.roots t' n hn
  · intro n hn u hu
    rcases hsub.2.2 n hn with h1 | h1
    · exact h.queued t n h1 u hu
    · rw [h.roots t n h1] at hu
      cases hu

end Sched

/-- Every event happened after all direct upstream blocks of its block had completed. -/
def Ordered (g : DGraph N T K) (tr : List (Ev N)) : Prop :=
  ∀ pre e post, tr = pre ++ e :: post → ∀ u ∈ g.up e.node, Done pre u

theorem Ordered.snoc {tr : List (Ev N)} (h : Ordered g tr) (e : Ev N)
    (he : ∀ u ∈ g.up e.node, Done tr u) : Ordered g (tr ++ [e]) := by
  intro pre e' post hx u hu
  rcases List.eq_nil_or_concat post with rfl | ⟨post', y, rfl⟩
  · have := List.append_inj' hx rfl
    have e1 : e = e' := by simpa using this.2
    subst e1
    rw [← this.1]
    exact he u hu
  · have : tr ++ [e] = (pre ++ e' :: post') ++ [y] := by simpa using hx
    exact h pre e' post' (List.append_inj' this rfl).1 u hu

theorem Ordered.take {pre post : List (Ev N)} (h : Ordered g (pre ++ post)) : Ordered g pre := by
  intro p e q hx u hu
  exact h p e (q ++ post) (by rw [hx]; simp) u hu

theorem done_mono {pre post : List (Ev N)} {x : N} (h : Done pre x) : Done (pre ++ post) x :=
  h.imp (List.mem_append_left _) (List.mem_append_left _)

/-- Completed blocks have completed upstream blocks. -/
theorem Ordered.event {tr : List (Ev N)} (h : Ordered g tr) {e : Ev N} (he : e ∈ tr) :
    ∀ u ∈ g.up e.node, Done tr u := by
  obtain ⟨pre, post, rfl⟩ := List.append_of_mem he
  exact fun u hu => done_mono (h pre e post rfl u hu)

theorem Ordered.anc {tr : List (Ev N)} (h : Ordered g tr) {n a : N}
    (hn : ∀ u ∈ g.up n, Done tr u) (ha : Anc g a n) : Done tr a := by
  obtain ⟨u, h1, h2⟩ := Relation.TransGen.tail'_iff.1 ha
  have hu := hn u h2
  clear ha h2
  induction h1 using Relation.ReflTransGen.head_induction_on with
  | refl => exact hu
  | head he _ ih =>
    rcases ih with h1 | h1
    · exact h.event h1 _ he
    · exact h.event h1 _ he

theorem acquireLoop_safe (t : T) (chk : Nat → N → Check) :
    ∀ (fuel k : Nat) {st st' : Sched N T K} {tr : List (Ev N)} {skips skips' : List N} {r : Option N},
      Sched.Safe g st (Done tr) → Ordered g tr →
      Sched.acquireLoop g t fuel chk k st skips = .ok (skips', r, st') →
      ∃ more, skips' = skips ++ more ∧ Sched.Safe g st' (Done (tr ++ acquireEvents more r)) ∧
        Ordered g (tr ++ acquireEvents more r)
  | 0, _, _, _, _, _, _, _, _, _, h => by cases h
  | fuel + 1, k, st, st', tr, skips, skips', r, hs, ho, h => by
    unfold Sched.acquireLoop at h
    split at h
    · cases h
    · rename_i q hq
      cases h
      refine ⟨[], by simp, ?_, by simpa [acquireEvents] using ho⟩
      simpa [acquireEvents] using (hs.next hq).1
    · rename_i n q hq
      obtain ⟨hs1, hup⟩ := hs.next hq
      have hup := hup n rfl
      dsimp only at h
      split at h
      · split at h
        · cases h
        · rename_i st3 hrel
          have hs2 := Sched.Safe.good (g := g) (D := Done tr) (hs1.of_eq (by rfl) (by
            intro t'
            simp only [Sched.modQueue_queues, Sched.modState_queues]
            split <;> simp_all) (by
            intro t'
            simp only [Sched.modQueue_queues, Sched.modState_queues]
            split <;> simp_all)) hrel
          have hs3 : Sched.Safe g st3 (Done (tr ++ [.skip n])) :=
            hs2.mono (fun x hx => (done_skip _ _ _).2 hx)
          have ho3 : Ordered g (tr ++ [.skip n]) := ho.snoc _ hup
          obtain ⟨more, e1, e2, e3⟩ := acquireLoop_safe t chk fuel (k + 1) hs3 ho3 h
          refine ⟨n :: more, by rw [e1]; simp, ?_, ?_⟩
          · simpa [acquireEvents] using e2
          · simpa [acquireEvents] using e3
      · cases h
        refine ⟨[], by simp, ?_, ?_⟩
        · refine (hs1.mono (fun x hx => ?_)).of_eq rfl ?_ ?_
          · simpa [acquireEvents, Done] using hx
          · intro t'
            simp only [Sched.modQueue_queues, Sched.modState_queues]
            split <;> simp_all
          · intro t'
            simp only [Sched.modQueue_queues, Sched.modState_queues]
            split <;> simp_all
        · have := ho.snoc (.hand n) hup
          simpa [acquireEvents] using this

theorem Ordered.held {tr : List (Ev N)} (h : Ordered g tr) {n : N} (hn : Held tr n) :
    ∀ u ∈ g.up n, Done tr u := by
  have hm : Ev.hand n ∈ tr := by
    rw [← List.count_pos_iff]
    unfold Held at hn
    omega
  exact h.event hm

theorem Run.ordered (hroot : ∀ t ∈ g.rootTasks, ∀ n ∈ g.rootGen t, g.up n = [])
    {tr : List (Ev N)} {st : Sched N T K} (h : Run g tr st) :
    Sched.Safe g st (Done tr) ∧ Ordered g tr := by
  induction h with
  | init =>
    refine ⟨(Sched.Safe.init hroot).mono (fun x hx => hx.elim), ?_⟩
    intro pre e post hx
    simp at hx
  | acquire chk t h hacq ih =>
    obtain ⟨more, e1, e2, e3⟩ := acquireLoop_safe t chk _ _ ih.1 ih.2 hacq
    rw [List.nil_append] at e1
    subst e1
    exact ⟨e2, e3⟩
  | good pick h hh hp hr ih =>
    exact ⟨(ih.1.good hr).mono (fun x hx => (done_good _ _ _).2 hx), ih.2.snoc _ (ih.2.held hh)⟩
  | bad pick h hh hp hr ih =>
    exact ⟨(ih.1.bad (ih.2.held hh) hr).mono (fun x hx => (done_bad _ _ _).2 hx),
      ih.2.snoc _ (ih.2.held hh)⟩

end Verif
