import Verif.Proofs.Queries
import Verif.Spec.Count

/-! # How often a block is counted as an orphan, and how often the scheduler asks in a whole run -/

namespace Verif

open Spec

theorem dtrue {P : Prop} (h : P) : @decide P (Classical.propDecidable P) = true := @decide_eq_true P (Classical.propDecidable P) h
theorem dfalse {P : Prop} (h : ¬ P) : @decide P (Classical.propDecidable P) = false :=
  @decide_eq_false P (Classical.propDecidable P) h
theorem of_dtrue {P : Prop} (h : @decide P (Classical.propDecidable P) = true) : P :=
  @of_decide_eq_true P (Classical.propDecidable P) h

set_option linter.unusedSectionVars false

variable {N T K : Type} [DecidableEq N] {g : DGraph N T K}

namespace RS

/-- A bound on how often `m` has been counted as an orphan: whenever it leaves the boundary, one of its upstream nodes has
left the surface. -/
noncomputable def pot (g : DGraph N T K) (rs : RS N) (S : N → Prop) (m : N) : Nat :=
  (if m ∈ rs.boundary then 1 else 0) +
    (g.up m).countP (fun u => @decide (S u ∧ u ∉ rs.surface) (Classical.propDecidable _))

theorem pot_mono {rs rs' : RS N} {S S' : N → Prop} {m : N} (hb : m ∈ rs.boundary → m ∈ rs'.boundary)
    (h : ∀ u ∈ g.up m, S u → u ∉ rs.surface → S' u ∧ u ∉ rs'.surface) : pot g rs S m ≤ pot g rs' S' m := by
  unfold pot
  refine Nat.add_le_add ?_ ?_
  · by_cases h1 : m ∈ rs.boundary
    · rw [if_pos h1, if_pos (hb h1)]
    · rw [if_neg h1]; exact Nat.zero_le _
  · refine List.countP_mono_left ?_
    intro u hu hd
    have := of_dtrue hd
    exact dtrue (h u hu this.1 this.2)

theorem cleanUp_pot (hg : g.OK) {rs rs' : RS N} {S : N → Prop} {u : N} (hu : u ∈ g.nodes) (hS : S u)
    (h : cleanUp g rs u = .ok rs') {x : N} (hx : x ∈ g.nodes) : pot g rs S x ≤ pot g rs' S x := by
  unfold cleanUp at h
  dsimp only at h
  split at h
  · unfold setRemove at h
    split at h
    · cases h
    · rename_i s hs
      split at hs
      · rename_i hus
        cases hs
        cases h
        obtain ⟨h1, h2⟩ := foldRemove (g := g) ((g.down u).zip ((g.down u).map rs.contained))
          { rs with surface := rs.surface.erase u }
        have hk := fun hl => foldRemove_keep (g := g) ((g.down u).zip ((g.down u).map rs.contained)) x hl
          { rs with surface := rs.surface.erase u }
        generalize (List.foldl _ _ _ : RS N) = rs2 at h1 h2 hk
        have hsub : ∀ v, v ∉ rs.surface → v ∉ rs2.surface := by
          intro v hv hc
          rw [h1] at hc
          exact hv (Finset.mem_of_mem_erase hc)
        by_cases hb : x ∈ rs.boundary → x ∈ rs2.boundary
        · exact pot_mono hb fun v _ a b => ⟨a, hsub v b⟩
        · rw [Classical.not_imp] at hb
          have hxd : x ∈ g.down u := by
            by_contra hc
            exact hb.2 (hk (fun p hp e => hc (e ▸ (List.of_mem_zip hp).1)) hb.1)
          have hux : u ∈ g.up x := (hg.dual u hu x hx).1 hxd
          unfold pot
          rw [if_pos hb.1, if_neg hb.2, Nat.zero_add, Nat.add_comm]
          have hun : u ∉ rs2.surface := by
            rw [h1]; exact Finset.notMem_erase _ _
          have := List.countP_mono_left (l := g.up x)
            (p := fun v => @decide ((S v ∧ v ∉ rs.surface) ∨ v = u) (Classical.propDecidable _))
            (q := fun v => @decide (S v ∧ v ∉ rs2.surface) (Classical.propDecidable _)) (by
              intro v _ hv
              rcases of_dtrue hv with hv | rfl
              · exact dtrue ⟨hv.1, hsub v hv.2⟩
              · exact dtrue ⟨hS, hun⟩)
          refine le_trans (Nat.le_of_eq ?_) this
          refine (countP_split _ _ u ?_ ?_ ?_ (g.up x) (hg.up_nodup x hx) hux).symm
          · intro v hv
            exact decide_eq_decide.2 (by simp [hv])
          · exact dfalse (fun hc => hc.2 hus)
          · exact dtrue (Or.inr rfl)
      · cases hs
  · cases h
    exact Nat.le_refl _

theorem cleanUps_pot (hg : g.OK) {S : N → Prop} {x : N} (hx : x ∈ g.nodes) : ∀ (us : List N) {rs rs' : RS N},
    (∀ u ∈ us, u ∈ g.nodes ∧ S u) → cleanUps g us rs = .ok rs' → pot g rs S x ≤ pot g rs' S x
  | [], _, _, _, h => by cases h; exact Nat.le_refl _
  | u :: us, rs, rs', hu, h => by
    unfold cleanUps at h
    split at h
    · cases h
    · rename_i rs1 h1
      have hu1 := hu u List.mem_cons_self
      exact (cleanUp_pot hg hu1.1 hu1.2 h1 hx).trans
        (cleanUps_pot hg hx us (fun v hv => hu v (List.mem_cons_of_mem _ hv)) h)

theorem scanDown_grow : ∀ (ms : List N) (rs : RS N) (ready : List N),
    (scanDown g ms rs ready).2.surface = rs.surface ∧ rs.boundary ⊆ (scanDown g ms rs ready).2.boundary
  | [], _, _ => ⟨rfl, Finset.Subset.refl _⟩
  | m :: ms, rs, ready => by
    unfold scanDown
    rcases hadd : addToBoundary g rs m with ⟨_ | _, rs1⟩
    · obtain ⟨_, rfl⟩ := addToBoundary_false hadd
      simp only
      split
      · exact scanDown_grow ms rs1 _
      · exact scanDown_grow ms rs1 _
    · obtain ⟨_, _, hrs⟩ := addToBoundary_true hadd
      simp only
      obtain ⟨h1, h2⟩ := scanDown_grow ms rs1 ready
      refine ⟨h1.trans (by rw [hrs]), Finset.Subset.trans ?_ h2⟩
      rw [hrs]
      exact Finset.subset_insert _ _

theorem markSuccess_pot (hg : g.OK) {rs rs' : RS N} {S : N → Prop} {n : N} {ready : List N} (hn : n ∈ g.nodes)
    (hup : ∀ u ∈ g.up n, S u) (hs : ¬ S n) (h : markSuccess g rs n = .ok (ready, rs')) {x : N} (hx : x ∈ g.nodes) :
    pot g rs S x ≤ pot g rs' (fun y => S y ∨ y = n) x := by
  unfold markSuccess at h
  dsimp only at h
  split at h
  · cases h
  · obtain ⟨a1, a2⟩ := scanDown_grow (g := g) (g.down n) { rs with surface := insert n rs.surface } []
    generalize scanDown g (g.down n) { rs with surface := insert n rs.surface } [] = z at h a1 a2
    obtain ⟨r2, rs2⟩ := z
    dsimp only at h a1 a2
    have b1 : pot g rs S x ≤ pot g rs2 (fun y => S y ∨ y = n) x := by
      refine pot_mono (fun hb => a2 hb) ?_
      intro u _ h1 h2
      refine ⟨Or.inl h1, ?_⟩
      rw [a1]
      intro hc
      rcases Finset.mem_insert.1 hc with rfl | hc
      · exact hs h1
      · exact h2 hc
    cases hc : cleanUps g (g.up n) rs2 with
    | error e => rw [hc] at h; cases h
    | ok rs3 =>
      rw [hc] at h
      have b2 := b1.trans (cleanUps_pot hg hx (g.up n) (fun u hu => ⟨hg.up_mem n hn u hu, Or.inl (hup u hu)⟩) hc)
      dsimp only at h
      split at h
      · unfold setRemove at h
        split at h
        · cases h
        · rename_i s hs'
          split at hs'
          · cases hs'
            cases h
            refine b2.trans (pot_mono (fun hb => hb) ?_)
            intro u _ h1 h2
            exact ⟨h1, fun hc => h2 (Finset.mem_of_mem_erase hc)⟩
          · cases hs'
      · cases h
        exact b2

theorem orphanLoop_grow (pick : Nat → Finset N → N) :
    ∀ (fuel k : Nat) (work : Finset N) (rs : RS N) (o o' : Finset N) (rs' : RS N),
      orphanLoop g pick fuel k work rs o = .ok (o', rs') →
      rs'.surface = rs.surface ∧ rs.boundary ⊆ rs'.boundary ∧ ∀ x ∈ o', x ∈ o ∨ x ∉ rs.boundary ∧ x ∈ rs'.boundary
  | 0, _, _, _, _, _, _, h => by cases h
  | fuel + 1, k, work, rs, o, o', rs', h => by
    unfold orphanLoop at h
    split at h
    · cases h
      exact ⟨rfl, Finset.Subset.refl _, fun x hx => Or.inl hx⟩
    · dsimp only at h
      split at h
      · cases h
      · rcases hadd : addToBoundary g rs (pick k work) with ⟨_ | _, rs1⟩
        · obtain ⟨_, rfl⟩ := addToBoundary_false hadd
          rw [hadd] at h
          exact orphanLoop_grow pick fuel (k + 1) _ rs1 o o' rs' h
        · obtain ⟨hm, _, hrs⟩ := addToBoundary_true hadd
          rw [hadd] at h
          obtain ⟨h1, h2, h3⟩ := orphanLoop_grow pick fuel (k + 1) _ rs1 _ o' rs' h
          have h4 : rs.boundary ⊆ rs1.boundary := by rw [hrs]; exact Finset.subset_insert _ _
          refine ⟨h1.trans (by rw [hrs]), h4.trans h2, ?_⟩
          intro x hx
          rcases h3 x hx with h5 | h5
          · rcases Finset.mem_insert.1 h5 with rfl | h5
            · exact Or.inr ⟨hm, h2 (by rw [hrs]; exact Finset.mem_insert_self _ _)⟩
            · exact Or.inl h5
          · exact Or.inr ⟨fun hc => h5.1 (h4 hc), h5.2⟩

theorem markFailure_pot (hg : g.OK) {rs rs' : RS N} {S : N → Prop} {n : N} {o : Finset N} (hn : n ∈ g.nodes)
    (hup : ∀ u ∈ g.up n, S u) (hnb : n ∉ rs.boundary) (hno : n ∉ o) (pick : Nat → Finset N → N)
    (h : markFailure g pick rs n = .ok (o, rs')) {x : N} (hx : x ∈ g.nodes) :
    pot g rs S x + (if x ∈ o then 1 else 0) ≤ pot g rs' S x := by
  unfold markFailure at h
  dsimp only at h
  split at h
  · cases h
  · rcases hl : orphanLoop g pick (orphanFuel g) 0 (g.down n).toFinset
      { rs with boundary := insert n rs.boundary } ∅ with e | ⟨o1, rs2⟩
    · rw [hl] at h; cases h
    · rw [hl] at h
      dsimp only at h
      obtain ⟨a1, a2, a3⟩ := orphanLoop_grow pick _ _ _ _ _ _ _ hl
      cases hc : cleanUps g (g.up n) rs2 with
      | error e => rw [hc] at h; cases h
      | ok rs3 =>
        rw [hc] at h
        dsimp only at h
        have b2 := cleanUps_pot hg hx (g.up n) (fun u hu => ⟨hg.up_mem n hn u hu, hup u hu⟩) hc
        have b1 : ∀ o2, o1 = o2 → pot g rs S x + (if x ∈ o2 then 1 else 0) ≤ pot g rs2 S x := by
          rintro _ rfl
          by_cases hxo : x ∈ o1
          · obtain ⟨c1, c2⟩ := (a3 x hxo).resolve_left (Finset.notMem_empty x)
            rw [if_pos hxo]
            unfold pot
            rw [if_pos c2, if_neg (fun hc => c1 (Finset.mem_insert_of_mem hc)), a1]
            change 0 + _ + 1 ≤ 1 + _
            exact Nat.le_of_eq (by rw [Nat.zero_add, Nat.add_comm])
          · rw [if_neg hxo, Nat.add_zero]
            refine pot_mono (fun hb => a2 (Finset.mem_insert_of_mem hb)) fun u _ c1 c2 => ⟨c1, ?_⟩
            rw [a1]; exact c2
        split at h
        · rename_i hemp
          unfold setRemove at h
          split at h
          · cases h
          · rename_i s hs'
            split at hs'
            · cases hs'
              cases h
              by_cases hxn : x = n
              · subst hxn
                rw [if_neg hno, Nat.add_zero]
                have hnil : g.up x = [] := List.isEmpty_iff.1 hemp
                unfold pot
                rw [hnil, if_neg hnb]
                exact Nat.zero_le _
              · refine (b1 _ rfl).trans (b2.trans (pot_mono (fun hb => ?_) fun u _ c1 c2 => ⟨c1, c2⟩))
                exact Finset.mem_erase.2 ⟨hxn, hb⟩
            · cases hs'
        · cases h
          exact (b1 _ rfl).trans b2

end RS

variable [DecidableEq T] [DecidableEq K]

namespace Counted

theorem removeFromProcessing_rs {st st1 : Sched N T K} {n : N} (h : st.removeFromProcessing g n = .ok st1) :
    st1.rs = st.rs := by
  unfold Sched.removeFromProcessing at h
  split at h
  · cases h; rfl
  · cases h

theorem updateReadyQueue_rs (ns : List N) : ∀ st : Sched N T K, (st.updateReadyQueue g ns).rs = st.rs := by
  induction ns with
  | nil => intro st; rfl
  | cons n ns ih =>
    intro st
    exact (ih (st.queueReadyBlock g n)).trans rfl

theorem release_success {pick : Nat → Finset N → N} {st st' : Sched N T K} {n : N}
    (h : st.releaseBlock g pick n .success = .ok st') :
    (∃ ready, st.rs.markSuccess g n = .ok (ready, st'.rs)) ∧
    (releaseBlock g pick st n .success).asks = (markSuccess g st.rs n).asks := by
  unfold Sched.releaseBlock at h
  unfold releaseBlock
  cases hr : st.removeFromProcessing g n with
  | error e => rw [hr] at h; cases h
  | ok st1 =>
    rw [hr] at h
    dsimp only at h ⊢
    rw [removeFromProcessing_rs hr] at h ⊢
    rw [Asked.asks_bind, markSuccess_val]
    rcases hm : st.rs.markSuccess g n with e | ⟨ready, rs'⟩
    · rw [hm] at h; cases h
    · rw [hm] at h
      dsimp only at h ⊢
      cases h
      refine ⟨⟨ready, ?_⟩, rfl⟩
      rw [updateReadyQueue_rs]
      rfl

theorem queueReady_orphaned (st : Sched N T K) (n : N) (t : T) :
    ((st.queueReadyBlock g n).states t).orphaned = (st.states t).orphaned := by
  by_cases ht : t = g.task n
  · subst ht; simp [Sched.queueReadyBlock, Sched.modQueue, Sched.modState, upd]
  · simp [Sched.queueReadyBlock, Sched.modQueue, Sched.modState, upd, ht]

theorem updateReadyQueue_orphaned (ns : List N) (t : T) : ∀ st : Sched N T K,
    ((st.updateReadyQueue g ns).states t).orphaned = (st.states t).orphaned := by
  induction ns with
  | nil => intro st; rfl
  | cons n ns ih =>
    intro st
    exact (ih (st.queueReadyBlock g n)).trans (queueReady_orphaned st n t)

theorem release_orphaned {pick : Nat → Finset N → N} {st st' : Sched N T K} {n : N}
    (h : st.releaseBlock g pick n .success = .ok st') (t : T) : (st'.states t).orphaned = (st.states t).orphaned := by
  unfold Sched.releaseBlock Sched.removeFromProcessing at h
  by_cases hk : g.key n ∈ (st.queues (g.task n)).processing
  · simp only [if_pos hk] at h
    split at h
    · cases h
    · cases h
      rw [updateReadyQueue_orphaned]
      by_cases ht : t = g.task n
      · subst ht; simp [Sched.modState, Sched.modQueue, upd]
      · simp [Sched.modState, Sched.modQueue, upd, ht]
  · simp only [if_neg hk] at h
    cases h

theorem acquireLoop_orphaned (t : T) (chk : Nat → N → Check) :
    ∀ (fuel k : Nat) (st st' : Sched N T K) (acc acc' : List N) (r : Option N),
      Sched.acquireLoop g t fuel chk k st acc = .ok (acc', r, st') →
      ∀ t', (st'.states t').orphaned = (st.states t').orphaned
  | 0, _, _, _, _, _, _, h => by cases h
  | fuel + 1, k, st, st', acc, acc', r, h => by
    intro t'
    unfold Sched.acquireLoop at h
    split at h
    · cases h
    · cases h; rfl
    · dsimp only at h
      split at h
      · split at h
        · cases h
        · rename_i st3 e1
          rw [acquireLoop_orphaned t chk fuel (k + 1) st3 st' _ acc' r h t', release_orphaned e1 t']
          by_cases ht : t' = t
          · subst ht; simp [Sched.modState, Sched.modQueue, upd]
          · simp [Sched.modState, Sched.modQueue, upd, ht]
      · cases h
        by_cases ht : t' = t
        · subst ht; simp [Sched.modState, Sched.modQueue, upd]
        · simp [Sched.modState, Sched.modQueue, upd, ht]

/-- Blocks that are finished for good. -/
noncomputable def finished (g : DGraph N T K) (tr : List (Ev N)) : Nat :=
  cntAll g (fun n => Done tr n ∨ Dead g tr n)

theorem finished_le (tr : List (Ev N)) : finished g tr ≤ g.nodes.length := List.countP_le_length

theorem finished_same {tr tr' : List (Ev N)} (h : ∀ n, (Done tr' n ∨ Dead g tr' n) ↔ (Done tr n ∨ Dead g tr n)) :
    finished g tr' = finished g tr := by
  unfold finished
  congr 1
  funext n
  exact propext (h n)

theorem finished_more (hg : g.OK) {tr tr' : List (Ev N)} {n : N} (hn : n ∈ g.nodes) (h0 : ¬ (Done tr n ∨ Dead g tr n))
    (h1 : ∀ x, (Done tr' x ∨ Dead g tr' x) ↔ (Done tr x ∨ Dead g tr x) ∨ x = n) :
    finished g tr' = finished g tr + 1 := by
  unfold finished cntAll
  refine countP_split _ _ n ?_ ?_ ?_ g.nodes hg.nodes_nodup hn
  · intro x hx
    exact decide_eq_decide.2 ((h1 x).trans (by simp [hx]))
  · exact dfalse h0
  · exact dtrue ((h1 n).2 (Or.inr rfl))

theorem acquireLoop_asks (hg : g.OK) {U D : Nat} (hb : Degrees g U D) (t : T) (chk : Nat → N → Check) :
    ∀ (fuel k : Nat) (tr : List (Ev N)) (st st' : Sched N T K) (acc acc' : List N) (r : Option N), RunInv g tr st →
      Sched.acquireLoop g t fuel chk k st acc = .ok (acc', r, st') →
      ∃ skips, acc' = acc ++ skips ∧
        (∀ x ∈ g.nodes, RS.pot g st.rs (Done tr) x ≤ RS.pot g st'.rs (Done (tr ++ acquireEvents skips r)) x) ∧
        (acquireLoop g t fuel chk k st acc).asks + (3 + 2 * D + U * (1 + D)) * finished g tr ≤
          (3 + 2 * D + U * (1 + D)) * finished g (tr ++ acquireEvents skips r)
  | 0, _, _, _, _, _, _, _, _, h => by cases h
  | fuel + 1, k, tr, st, st', acc, acc', r, hi, h => by
    unfold Sched.acquireLoop at h
    unfold acquireLoop
    rcases hq : (st.queues t).getNext with e | ⟨_ | n, q⟩
    · rw [hq] at h; cases h
    · rw [hq] at h
      cases h
      refine ⟨[], by simp, ?_, ?_⟩
      · intro x _
        simp [acquireEvents]
      · simp [acquireEvents]
    · rw [hq] at h
      obtain ⟨hr, ht, hhand, hskip⟩ := hi.pop_hand hg hq
      dsimp only at h ⊢
      split at h
      · rename_i hc
        rw [if_pos hc]
        obtain ⟨st3, e1, e2⟩ := hskip _ rfl (fun _ _ => n)
        rw [e1] at h
        rw [Asked.asks_bind, releaseBlock_val, e1]
        obtain ⟨⟨ready, e3⟩, e4⟩ := release_success e1
        rw [e4]
        dsimp only at h ⊢
        obtain ⟨skips, f1, f2, f3⟩ := acquireLoop_asks hg hb t chk fuel (k + 1) (tr ++ [.skip n]) st3 st' (acc ++ [n]) acc'
          r e2 h
        have hev : tr ++ [.skip n] ++ acquireEvents skips r = tr ++ acquireEvents (n :: skips) r := by
          simp [acquireEvents]
        rw [hev] at f2 f3
        refine ⟨n :: skips, by rw [f1]; simp, ?_, ?_⟩
        · intro x hx
          refine le_trans ?_ (f2 x hx)
          have := RS.markSuccess_pot hg (S := Done tr) hr.1 hr.2.1 hr.2.2.1 e3 hx
          refine this.trans (Nat.le_of_eq ?_)
          congr 1
          funext y
          exact propext (done_skip tr n y).symm
        · have a1 := markSuccess_asks (g := g) st.rs n (hb.up n hr.1) (hb.down n hr.1)
            (fun u hu => hb.down u (hg.up_mem n hr.1 u hu))
          have a2 : finished g (tr ++ [.skip n]) = finished g tr + 1 := by
            refine finished_more hg hr.1 (fun hc => hc.elim hr.2.2.1 hr.2.2.2.1) fun x => ?_
            rw [done_skip, dead_skip]
            tauto
          rw [a2, Nat.mul_add, Nat.mul_one] at f3
          change (markSuccess g st.rs n).asks + _ + _ ≤ _
          omega
      · rename_i hc
        rw [if_neg hc]
        cases h
        have hdone : ∀ x, Done (tr ++ acquireEvents [] (some n)) x ↔ Done tr x := by
          intro x
          exact done_hand tr n x
        refine ⟨[], by simp, ?_, ?_⟩
        · intro x _
          refine RS.pot_mono (fun h => h) fun u _ h1 h2 => ⟨(hdone u).2 h1, h2⟩
        · rw [Asked.asks_pure, Nat.zero_add]
          refine Nat.mul_le_mul_left _ (Nat.le_of_eq ?_)
          refine (finished_same fun x => ?_).symm
          exact or_congr (hdone x) (dead_hand tr n x)

/-- What is kept over a run. -/
structure AskInv (g : DGraph N T K) (U D : Nat) (tr : List (Ev N)) (st : Sched N T K) (o : N → Nat) (q : Nat) : Prop where
  run : Run g tr st
  pot : ∀ m ∈ g.nodes, o m ≤ RS.pot g st.rs (Done tr) m
  orph : ∀ m, 0 < o m → m ∈ g.nodes ∧ Orphan g tr m
  sum : ∀ t, (st.states t).orphaned = csum g t o
  asks : q ≤ (3 + 2 * D + U * (1 + D)) * finished g tr + (1 + D) * (g.nodes.map o).sum

theorem AskInv.congr {U D : Nat} {tr : List (Ev N)} {st : Sched N T K} {o o' : N → Nat} {q : Nat}
    (h : AskInv g U D tr st o q) (e : ∀ m, o' m = o m) : AskInv g U D tr st o' q := by
  have : o' = o := funext e
  rw [this]; exact h

theorem release_retry_asks {pick : Nat → Finset N → N} {st : Sched N T K} {n : N}
    (h : ¬ g.maxRetries (g.task n) ≤ (st.queues (g.task n)).retries (g.key n)) :
    (releaseBlock g pick st n .failed).asks = 0 ∧ st.orphansOf g pick n .failed = ∅ ∧
    ∀ st', st.releaseBlock g pick n .failed = .ok st' → st'.rs = st.rs ∧
      ∀ t, (st'.states t).orphaned = (st.states t).orphaned := by
  by_cases hk : g.key n ∈ (st.queues (g.task n)).processing
  · refine ⟨?_, ?_, ?_⟩
    · unfold releaseBlock Sched.removeFromProcessing
      simp only [if_pos hk]
      split
      · rename_i h2; exact absurd h2 (by simpa [Sched.modQueue, Sched.modState, upd] using h)
      · rfl
    · unfold Sched.orphansOf Sched.removeFromProcessing
      simp only [if_pos hk]
      split
      · rename_i h2; exact absurd h2 (by simpa [Sched.modQueue, Sched.modState, upd] using h)
      · rfl
    · intro st' he
      unfold Sched.releaseBlock Sched.removeFromProcessing at he
      simp only [if_pos hk] at he
      split at he
      · rename_i h2; exact absurd h2 (by simpa [Sched.modQueue, Sched.modState, upd] using h)
      · cases he
        refine ⟨rfl, fun t => ?_⟩
        by_cases ht : t = g.task n
        · subst ht; simp [Sched.queueReadyBlock, Sched.modQueue, Sched.modState, upd]
        · simp [Sched.queueReadyBlock, Sched.modQueue, Sched.modState, upd, ht]
  · refine ⟨?_, ?_, ?_⟩
    · unfold releaseBlock Sched.removeFromProcessing
      simp only [if_neg hk]
      rfl
    · unfold Sched.orphansOf Sched.removeFromProcessing
      simp only [if_neg hk]
    · intro st' he
      unfold Sched.releaseBlock Sched.removeFromProcessing at he
      simp only [if_neg hk] at he
      cases he

theorem release_dead_asks {pick : Nat → Finset N → N} {st st' : Sched N T K} {n : N}
    (h : g.maxRetries (g.task n) ≤ (st.queues (g.task n)).retries (g.key n))
    (he : st.releaseBlock g pick n .failed = .ok st') :
    ∃ o, st.rs.markFailure g pick n = .ok (o, st'.rs) ∧ st.orphansOf g pick n .failed = o ∧
      (releaseBlock g pick st n .failed).asks = (markFailure g pick st.rs n).asks ∧
      ∀ t, (st'.states t).orphaned = (st.states t).orphaned + ((o.filter (fun x => g.task x = t)).card : Int) := by
  by_cases hk : g.key n ∈ (st.queues (g.task n)).processing
  · rcases hm : st.rs.markFailure g pick n with e | ⟨o, rs'⟩
    · unfold Sched.releaseBlock Sched.removeFromProcessing at he
      simp only [if_pos hk] at he
      split at he
      · simp only [Sched.modQueue, Sched.modState, hm] at he
        cases he
      · rename_i h2; exact absurd (by simpa [Sched.modQueue, Sched.modState, upd] using h) h2
    · have hfst : st'.rs = rs' ∧ ∀ t, (st'.states t).orphaned =
          (st.states t).orphaned + ((o.filter (fun x => g.task x = t)).card : Int) := by
        unfold Sched.releaseBlock Sched.removeFromProcessing at he
        simp only [if_pos hk] at he
        split at he
        · simp only [Sched.modQueue, Sched.modState, hm] at he
          cases he
          refine ⟨rfl, fun t => ?_⟩
          by_cases ht : t = g.task n
          · subst ht; simp [Sched.countOrphans, upd]
          · simp [Sched.countOrphans, upd, ht]
        · rename_i h2; exact absurd (by simpa [Sched.modQueue, Sched.modState, upd] using h) h2
      refine ⟨o, by rw [hfst.1], ?_, ?_, hfst.2⟩
      · unfold Sched.orphansOf Sched.removeFromProcessing
        simp only [if_pos hk]
        split
        · simp only [Sched.modQueue, Sched.modState, hm]
        · rename_i h2; exact absurd (by simpa [Sched.modQueue, Sched.modState, upd] using h) h2
      · unfold releaseBlock Sched.removeFromProcessing
        simp only [if_pos hk]
        split
        · rw [Asked.asks_bind, markFailure_val]
          simp only [Sched.modQueue, Sched.modState, hm]
          rfl
        · rename_i h2; exact absurd (by simpa [Sched.modQueue, Sched.modState, upd] using h) h2
  · unfold Sched.releaseBlock Sched.removeFromProcessing at he
    simp only [if_neg hk] at he
    cases he

theorem sum_orphans (hg : g.OK) (o : N → Nat) (s : Finset N) (hs : ∀ x ∈ s, x ∈ g.nodes) :
    (g.nodes.map (fun m => o m + if m ∈ s then 1 else 0)).sum = (g.nodes.map o).sum + s.card := by
  have h1 : s = (g.nodes.filter (fun x => decide (x ∈ s))).toFinset := by
    ext x
    simp only [List.mem_toFinset, List.mem_filter, decide_eq_true_eq]
    exact ⟨fun h => ⟨hs x h, h⟩, fun h => h.2⟩
  have h2 : s.card = (g.nodes.filter (fun x => decide (x ∈ s))).length := by
    conv_lhs => rw [h1]
    exact List.toFinset_card_of_nodup (hg.nodes_nodup.filter _)
  rw [h2, ← List.countP_eq_length_filter]
  clear h1 h2 hs
  induction g.nodes with
  | nil => rfl
  | cons x l ih =>
    rw [List.map_cons, List.map_cons, List.sum_cons, List.sum_cons, ih, List.countP_cons]
    by_cases hx : x ∈ s
    · simp only [hx, if_true, decide_true]; omega
    · simp only [hx, if_false, decide_false]; simp; omega

theorem RunAsked.inv (hg : g.OK) {U D : Nat} (hb : Degrees g U D) {tr : List (Ev N)} {st : Sched N T K} {o : N → Nat}
    {q : Nat} (h : RunAsked g tr st o q) : AskInv g U D tr st o q := by
  induction h with
  | init =>
    refine ⟨.init, fun _ _ => Nat.zero_le _, fun _ h => absurd h (Nat.lt_irrefl 0), ?_, Nat.zero_le _⟩
    intro t
    obtain ⟨c, hi⟩ := ((Run.init : Run g [] (Sched.init g)).inv hg).inv
    rw [hi.orphaned]
    refine csum_congr fun n hn => ?_
    have := mt (hi.c_pos n hn).1 (by rintro ⟨f, hf, _⟩; exact absurd hf.1 (by simp))
    omega
  | acquire chk t h he ih =>
    rename_i tr st st' o q k skips r
    have hv : st.acquireBlock g chk t = .ok (skips, r, st') := by rw [← acquireBlock_val, he]
    have hi := ih.run.inv hg
    obtain ⟨sk, f1, f2, f3⟩ := acquireLoop_asks hg hb t chk _ 0 tr st st' [] skips r hi hv
    rw [List.nil_append] at f1
    subst f1
    have hk : (acquireLoop g t (g.nodes.length + 1) chk 0 st []).asks = k := congrArg Asked.asks he
    rw [hk] at f3
    have hdead : ∀ x, Dead g (tr ++ acquireEvents skips r) x ↔ Dead g tr x := by
      intro x
      have h1 : (acquireEvents skips r).count (.bad x) = 0 := by
        rw [List.count_eq_zero]
        intro hm
        unfold acquireEvents at hm
        rcases List.mem_append.1 hm with hm | hm
        · obtain ⟨y, _, hy⟩ := List.mem_map.1 hm; cases hy
        · cases r <;> simp at hm
      unfold Dead
      rw [List.count_append, h1, Nat.add_zero, List.mem_append]
      have h2 := List.count_eq_zero.1 h1
      simp only [h2, or_false]
    refine ⟨.acquire chk t ih.run hv, ?_, ?_, ?_, ?_⟩
    · intro m hm
      exact (ih.pot m hm).trans (f2 m hm)
    · intro m hm
      obtain ⟨h1, f, h2, h3⟩ := ih.orph m hm
      exact ⟨h1, f, (hdead f).2 h2, h3⟩
    · intro t'
      rw [← ih.sum t']
      exact acquireLoop_orphaned t chk _ _ _ _ _ _ _ hv t'
    · have := ih.asks
      omega
  | good pick h hn hp he ih =>
    rename_i tr st st' o q k n
    have hv : st.releaseBlock g pick n .success = .ok st' := by rw [← releaseBlock_val, he]
    obtain ⟨⟨ready, e1⟩, e2⟩ := release_success hv
    obtain ⟨c, hi⟩ := (ih.run.inv hg).inv
    have hnn := hi.hNode n hn
    rw [he] at e2
    dsimp only at e2
    refine ⟨.good pick ih.run hn hp hv, ?_, ?_, ?_, ?_⟩
    · intro m hm
      refine (ih.pot m hm).trans ((RS.markSuccess_pot hg (S := Done tr) hnn (hi.hUp n hn) (hi.hS n hn) e1 hm).trans
        (Nat.le_of_eq ?_))
      congr 1
      funext y
      exact propext (done_good tr n y).symm
    · intro m hm
      obtain ⟨h1, f, h2, h3⟩ := ih.orph m hm
      exact ⟨h1, f, (dead_good tr n f).2 h2, h3⟩
    · intro t'
      rw [← ih.sum t']
      exact release_orphaned hv t'
    · have a1 := markSuccess_asks (g := g) st.rs n (hb.up n hnn) (hb.down n hnn)
        (fun u hu => hb.down u (hg.up_mem n hnn u hu))
      have a2 : finished g (tr ++ [.good n]) = finished g tr + 1 := by
        refine finished_more hg hnn (fun hc => hc.elim (hi.hS n hn) (hi.hF n hn)) fun x => ?_
        rw [done_good, dead_good]
        tauto
      have := ih.asks
      rw [a2, Nat.mul_add, Nat.mul_one, e2]
      omega
  | bad pick h hn hp he ih =>
    rename_i tr st st' o q k n
    have hv : st.releaseBlock g pick n .failed = .ok st' := by rw [← releaseBlock_val, he]
    obtain ⟨c, hi⟩ := (ih.run.inv hg).inv
    have hnn := hi.hNode n hn
    have hkk : (releaseBlock g pick st n .failed).asks = k := by rw [he]
    have hret := hi.retries n hnn (hi.hF n hn)
    by_cases hmax : g.maxRetries (g.task n) ≤ (st.queues (g.task n)).retries (g.key n)
    · obtain ⟨os, e1, e2, e3, e4⟩ := release_dead_asks hmax hv
      rw [e2]
      obtain ⟨os', rs', f1, _, _, f2, _, _, _⟩ := RS.markFailure_spec hg hi.rs hi.lost hnn (hi.hUp n hn) (hi.hS n hn)
        (hi.hF n hn) pick hp
      rw [e1] at f1
      cases f1
      have hno : n ∉ os := fun hc => hg.anc_irrefl hnn (f2 n hc).2
      have hnb : n ∉ st.rs.boundary := by
        intro hc
        rcases (hi.rs.bdry n hc).2 with h1 | h1
        · exact hi.hF n hn h1
        · exact hi.rs.up_s_not_below (hi.hUp n hn) h1
      have hdead : ∀ x, Dead g (tr ++ [.bad n]) x ↔ Dead g tr x ∨ x = n := by
        intro x
        rw [dead_bad]
        rw [hret] at hmax
        simp only [hmax, and_true]
      refine ⟨.bad pick ih.run hn hp hv, ?_, ?_, ?_, ?_⟩
      · intro m hm
        have h1 := RS.markFailure_pot hg (S := Done tr) hnn (hi.hUp n hn) hnb hno pick e1 hm
        have h2 := ih.pot m hm
        have h3 : RS.pot g st'.rs (Done (tr ++ [.bad n])) m = RS.pot g st'.rs (Done tr) m := by
          congr 1
          funext y
          exact propext (done_bad tr n y)
        rw [h3]
        omega
      · intro m hm
        by_cases hmo : m ∈ os
        · exact ⟨(f2 m hmo).1, n, (hdead n).2 (Or.inr rfl), (f2 m hmo).2⟩
        · rw [if_neg hmo, Nat.add_zero] at hm
          obtain ⟨h1, f, h2, h3⟩ := ih.orph m hm
          exact ⟨h1, f, (hdead f).2 (Or.inl h2), h3⟩
      · intro t'
        rw [e4, ih.sum t', csum_add hg t' o os (fun x hx => (f2 x hx).1)]
      · have a1 := markFailure_asks hg.down_mem hb.down pick hnn (hg.up_mem n hnn) (hb.up n hnn) e1
        have a2 : finished g (tr ++ [.bad n]) = finished g tr + 1 := by
          refine finished_more hg hnn (fun hc => hc.elim (hi.hS n hn) (hi.hF n hn)) fun x => ?_
          rw [done_bad, hdead]
          tauto
        have := ih.asks
        rw [a2, sum_orphans hg o os (fun x hx => (f2 x hx).1), Nat.mul_add _ (finished g tr), Nat.mul_one, Nat.mul_add _ (List.sum _),
          ← hkk, e3]
        omega
    · obtain ⟨e1, e2, e3⟩ := release_retry_asks (pick := pick) hmax
      obtain ⟨e3, e4⟩ := e3 st' hv
      rw [e2]
      have hdead : ∀ x, Dead g (tr ++ [.bad n]) x ↔ Dead g tr x := by
        intro x
        rw [dead_bad]
        rw [hret] at hmax
        simp only [hmax, and_false, or_false]
      have base : AskInv g U D (tr ++ [.bad n]) st' o (q + k) := by
        refine ⟨.bad pick ih.run hn hp hv, ?_, ?_, ?_, ?_⟩
        · intro m hm
          refine (ih.pot m hm).trans (Nat.le_of_eq ?_)
          rw [e3]
          congr 1
          funext y
          exact propext (done_bad tr n y).symm
        · intro m hm
          obtain ⟨h1, f, h2, h3⟩ := ih.orph m hm
          exact ⟨h1, f, (hdead f).2 h2, h3⟩
        · intro t'
          rw [e4, ih.sum t']
        · have a2 : finished g (tr ++ [.bad n]) = finished g tr :=
            finished_same fun x => or_congr (done_bad tr n x) (hdead x)
          have := ih.asks
          rw [a2, ← hkk, e1]
          exact this
      exact base.congr fun m => by simp

end Counted
end Verif
