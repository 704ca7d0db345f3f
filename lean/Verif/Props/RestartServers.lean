import Verif.Proofs.MarksCluster
import Verif.Proofs.MarksSerial
import Verif.Props.Restart

/-! # C111: interrupted runs of either server are resumed -/

namespace Verif.Props

open Verif Spec Pipeline

section
variable {N T K L V : Type} [DecidableEq N] [DecidableEq T] [DecidableEq K] [DecidableEq L]
  {g : DGraph N T K} {R W : N → L → Prop} {P : N → Prog L V} {D₀ D' : L → V} {order : List N}
  {served : List T} {S : Type} [DecidableEq S] {a : (L → V) × (N → Prop)}

/-- C111 for dependency graphs, check functions that look at marks and either server: after any number of runs that were
given up, where marked blocks store the data are as if all blocks had been processed one after the other without
interruptions, where no block stores nothing has changed, and a run that completes all blocks leaves the data of
processing them one after the other. -/
theorem C111_servers_graph (hg : g.Loose) (hd : Disciplined g R W P) (ho : Topological g order)
    (hR : ∀ n ∈ g.nodes, Restartable (W n) (P n))
    (h : Relation.ReflTransGen (MarkAttempt g served P S) (D₀, fun _ => False) a) :
    (∀ n, a.2 n → ∀ l, W n l → a.1 l = oneByOne P order D₀ l) ∧ (∀ l, (∀ n ∈ g.nodes, ¬ W n l) → a.1 l = D₀ l) ∧
    (MarkCompletion g served P S a D' → D' = oneByOne P order D₀) := by
  obtain ⟨H, hi⟩ : ∃ H, Ground g W D₀ (oneByOne P order D₀) H a.1 a.2 := by
    induction h with
    | refl => exact ⟨_, Ground.init _⟩
    | @tail a b _ hb ih =>
      obtain ⟨H, hi⟩ := ih
      cases hb with
      | workers hr => exact ⟨_, (hr.inv hg hd ho hR hi).ground⟩
      | serial hr => exact ⟨_, (hr.inv hg hd ho hR hi).ground⟩
      | inside hr hx => exact hr.raised hg hd ho hR hi hx
  refine ⟨fun n hn => (hi.marked n hn).2, hi.off, fun hc => ?_⟩
  cases hc with
  | workers hr hall =>
    have h1 := hr.inv hg hd ho hR hi
    exact data_all hd ho h1.ground.off (fun n hn => (h1.ground.marked n (h1.done n (hall n hn))).2)
  | serial hr hall =>
    have h1 := hr.inv hg hd ho hR hi
    refine data_all hd ho h1.ground.off (fun n hn => (h1.ground.marked n (h1.done n ?_)).2)
    exact (hall n hn).imp (mem_good _ n).2 (mem_skip _ n).2

/-- C111: a run with worker processes sends no block that was marked when it began. -/
theorem C111_not_again (hg : g.Loose) {c : SysConf T} {D₁ D : L → V} {M₁ M : N → Prop} {es : List (ClEv N T S)}
    {x : Cluster N T K S} {cur : S → Prog L V} (h : ClMarkRun g c P D₁ M₁ es x D cur M) {s : S} {n : N}
    (hn : M₁ n) : M n ∧ .send s n ∉ x.sys.srv.out := by
  induction h with
  | init h =>
    refine ⟨hn, fun hm => ?_⟩
    have hevs : evs _ = [] := ClRun.init_evs h
    have : Ev.hand n ∈ evs _ := List.mem_filterMap.2 ⟨_, hm, rfl⟩
    rw [hevs] at this
    cases this
  | @event es x y D cur M e hrun hl hs hchk _ ih =>
    refine ⟨ih.1, fun hm => ?_⟩
    rw [step_evs hg (ClRun.inv hg (ClMarkRun.run hrun)) hl hs] at hm
    rcases List.mem_append.1 hm with h1 | h1
    · exact ih.2 h1
    · exact (step_checks hl hs hchk _ h1).2 s n rfl ih.1
  | work _ _ _ _ ih => exact ih
  | mark _ _ _ _ ih => exact ⟨Or.inr ih.1, ih.2⟩

/-- C111: a run without worker processes does not process blocks that were marked when it began. -/
theorem C111_not_again_serial (hg : g.Loose) {D₁ D : L → V} {M₁ M : N → Prop} {ks : List (SerTick N T)}
    {σ : Serial N T K} (h : SerMarkRun g served P D₁ M₁ ks σ D M) {n : N} (hn : M₁ n) : M n ∧ .call n ∉ σ.out := by
  induction h with
  | init => exact ⟨hn, by simp [Serial.init]⟩
  | @pass ks σ σ' k D D' M M' hr he hpick hpass hchk hdid ih =>
    have hM : M' n := by
      rcases hdid with ⟨m, _, ⟨q, _, h1⟩, _⟩ | ⟨_, _, h1⟩
      · rcases h1 with h1 | ⟨_, h1⟩
        · rw [h1]; exact ih.1
        · rw [h1]; exact Or.inr ih.1
      · rw [h1]; exact ih.1
    refine ⟨hM, fun hm => ?_⟩
    have hi := hr.run.inv hg
    rcases pass_cases hg hi he hpick with ⟨σ1, skips, e1, hl⟩ | ⟨skips, m, st, _, _, ⟨_, e1⟩ | ⟨_, _, e1⟩ | ⟨σ1, e1, hd⟩⟩
    · rw [hpass] at e1
      cases e1
      rw [hl.out] at hm
      simp at hm
      exact ih.2 hm
    · rw [hpass] at e1; cases e1
    · rw [hpass] at e1; cases e1
    · rw [hpass] at e1
      cases e1
      obtain ⟨st1, a1, _⟩ := hd.acquired
      have hnm := ((acquireAny_marks hg hi.run hchk a1).2 m rfl).2
      obtain ⟨s, d, e, o1, o2, o3, o4⟩ := hd.out
      rw [o1, o2, o3, o4] at hm
      simp only [List.mem_append, List.mem_map] at hm
      rcases hm with ((((hm | ⟨_, _, hm⟩) | hm) | hm) | hm) | hm
      · exact ih.2 hm
      · cases hm
      · split at hm <;> simp at hm
      · have : n = m := by simpa using hm
        exact hnm (this ▸ ih.1)
      · split at hm <;> simp at hm
      · split at hm <;> simp at hm

end

variable {d : Nat} {tasks r : List (Task d)} {p : Pipeline d} {V : Type} {P : Block d → Prog (Nat × Coord d) V}
  {D₀ D' : Nat × Coord d → V} {order : List (Block d)} {S : Type} [DecidableEq S]
  {a : (Nat × Coord d → V) × (Block d → Prop)}

/-- C111, check functions that look at marks and either server: the process functions keep to their ROIs and can be
started again, and mark their blocks after they have stored their results and before they return.  After any number of
runs that were given up, with and without worker processes, marked blocks have their final results, and a run that
completes all blocks leaves the data of processing the blocks one after the other without interruptions. -/
theorem C111_servers (h : PlainTasks tasks) (hb : Builds tasks r p) (hP : KeepToRois tasks p P)
    (hR : ∀ x b, p.BlockOf x b → Restartable (MayStore b) (P b)) (ho : Topological p.view order)
    (hrun : Relation.ReflTransGen (MarkAttempt p.view (r.map TTree.id) P S) (D₀, fun _ => False) a) :
    (∀ t, Required tasks t → ∀ b, p.BlockOf t.id b → a.2 b → ∀ v, InRoi v b.writeRoi →
      a.1 (t.id, v) = oneByOne P order D₀ (t.id, v)) ∧
    (MarkCompletion p.view (r.map TTree.id) P S a D' → D' = oneByOne P order D₀) := by
  have hbt := built_of_init hb.init (hb.unique h)
  obtain ⟨h1, _, h3⟩ := C111_servers_graph (D' := D') (hb.ok h) (hP.disciplined h hb) ho (fun n hn => by
    obtain ⟨x, hx⟩ := hb.of_nodes h hn
    exact hR x n hx) hrun
  exact ⟨fun t _ b hbb hm v hv => h1 b hm (t.id, v) ⟨(blockOf_taskId hbt.1 (hb.wf h) hbb).symm, hv⟩, h3⟩

end Verif.Props
