import Verif.Proofs.Restart
import Verif.Proofs.Attempts
import Verif.Props.SerialData

/-! # C111: computations that were interrupted can be resumed -/

namespace Verif.Props

open Verif Spec Pipeline

section
variable {N T K L V : Type} [DecidableEq N] [DecidableEq T] [DecidableEq K] [DecidableEq L]
  {g : DGraph N T K} {R W : N → L → Prop} {P : N → Prog L V} {D₀ D D' : L → V} {order : List N} {tr : List (Ev N)}
  {st : Sched N T K} {cur : N → Prog L V} {M : N → Prop} {served : List T} {S : Type} [DecidableEq S]

/-- C111 for dependency graphs, check functions that look at marks: after any number of interruptions, where marked
blocks store the data are as if all blocks had been processed one after the other without interruptions, and where no
block stores nothing has changed. -/
theorem C111_graph (hg : g.Loose) (hd : Disciplined g R W P) (ho : Topological g order)
    (hR : ∀ n ∈ g.nodes, Restartable (W n) (P n)) (h : RestartRun g P D₀ tr st D cur M) :
    (∀ n, M n → ∀ l, W n l → D l = oneByOne P order D₀ l) ∧ (∀ n, Done tr n → M n) ∧
    (∀ l, (∀ n ∈ g.nodes, ¬ W n l) → D l = D₀ l) := by
  obtain ⟨H, hi⟩ := h.inv hg hd ho hR
  exact ⟨fun n hn => (hi.marked n hn).2, hi.done, hi.off⟩

/-- C111 for dependency graphs, no marks: no block looks at what a later block stores.  After any number of attempts that
were given up, a run that completes all blocks leaves the data behind that it would have left without the attempts. -/
theorem C111_attempts_graph (hg : g.Loose) (hd : Disciplined g R W P) (ho : Topological g order)
    (hR : ∀ n ∈ g.nodes, Restartable (W n) (P n))
    (hfirst : ∀ a ∈ g.nodes, ∀ b ∈ g.nodes, ∀ l, W a l → R b l → a ≠ b → Anc g a b)
    (h : Relation.ReflTransGen (Attempt g served P S) D₀ D) (hc : Completion g served P S D D') :
    D' = oneByOne P order D₀ := by
  have hbad : ∀ {D₀ D : L → V} {ks : List (SerTick N T)} {σ : Serial N T K},
      SerDataRun g served P D₀ ks σ D → ∀ n, .release n .failed ∈ σ.out → Restartable (W n) (P n) :=
    fun hrun n hn => hR n (((hrun.run.inv hg).run.facts hg).node _ ((mem_bad _ n).2 hn))
  have hoff : ∀ l, (∀ n ∈ g.nodes, ¬ W n l) → D l = D₀ l := by
    clear hc
    induction h with
    | refl => exact fun _ _ => rfl
    | @tail D D₁ _ ha ih =>
      intro l hl
      rw [← ih l hl]
      cases ha with
      | workers hr => exact (hr.frame hg hd.uses).1 l hl
      | serial hr => exact (C110_graph hg hd ho hr (hbad hr)).2 l (fun n hn _ => hl n hn)
      | inside hr hx =>
        obtain ⟨es, st, cur, h1, h2, _⟩ := hr.raised hg hx
        refine (C108_graph hg hd ho h1 (fun n hn => ?_)).2.1 l (fun n hn _ => hl n hn)
        rcases List.mem_append.1 hn with h3 | h3
        · exact hbad hr n ((mem_bad _ n).1 h3)
        · exact absurd h3 (h2 n)
  rw [← C108_resume hg hd ho hR hfirst hoff]
  cases hc with
  | workers hr hall =>
    obtain ⟨ks, hs⟩ := ClRun.srun hg (ClDataRun.run hr)
    exact (C109_open_partial hg hd ho hr (fun n hn => hR n (((hs.inv hg).run.facts hg).node _ hn))).2.2 hall
  | serial hr hall =>
    obtain ⟨h1, h2⟩ := C110_graph hg hd ho hr (hbad hr)
    exact data_all hd ho (fun l hl => h2 l (fun n hn _ => hl n hn)) (fun n hn => h1 n hn (hall n hn))

end

variable {d : Nat} {tasks r : List (Task d)} {p : Pipeline d} {V : Type} {P : Block d → Prog (Nat × Coord d) V}
  {D₀ D D' : Nat × Coord d → V} {order : List (Block d)}

/-- C111, check functions that look at marks: the process functions keep to their ROIs and can be started again, and mark
their blocks after they have stored their results.  After any number of interruptions, marked blocks have their final
results, and once all blocks are completed the data are those of processing the blocks one after the other without
interruptions. -/
theorem C111_marks (h : PlainTasks tasks) (hb : Builds tasks r p) (hP : KeepToRois tasks p P)
    (hR : ∀ x b, p.BlockOf x b → Restartable (MayStore b) (P b)) (ho : Topological p.view order)
    {tr : List (Ev (Block d))} {st : Sched (Block d) Nat (Nat × Int)} {cur : Block d → Prog (Nat × Coord d) V}
    {M : Block d → Prop} (hrun : RestartRun p.view P D₀ tr st D cur M) :
    (∀ t, Required tasks t → ∀ b, p.BlockOf t.id b → M b → ∀ v, InRoi v b.writeRoi →
      D (t.id, v) = oneByOne P order D₀ (t.id, v)) ∧
    ((∀ x b, p.BlockOf x b → Done tr b) → D = oneByOne P order D₀) := by
  have hbt := built_of_init hb.init (hb.unique h)
  have hd := hP.disciplined h hb
  obtain ⟨h1, h2, h3⟩ := C111_graph (hb.ok h) hd ho (fun n hn => by
    obtain ⟨x, hx⟩ := hb.of_nodes h hn
    exact hR x n hx) hrun
  refine ⟨fun t _ b hbb hm v hv => h1 b hm (t.id, v) ⟨(blockOf_taskId hbt.1 (hb.wf h) hbb).symm, hv⟩, fun hall => ?_⟩
  refine data_all hd ho h3 (fun n hn => ?_)
  obtain ⟨x, hx⟩ := hb.of_nodes h hn
  exact h1 n (h2 n (hall x n hx))

/-- C111, no marks: no task has `read_write_conflict`, the process functions keep to their ROIs and can be started again,
and check functions (if any) accept only blocks whose results are there.  After any number of attempts that were given
up, with and without worker processes, a run that completes all blocks leaves the data of processing the blocks one after
the other without interruptions. -/
theorem C111_attempts (h : PlainTasks tasks) (hb : Builds tasks r p) (hP : KeepToRois tasks p P)
    (hc : ∀ t, Required tasks t → t.info.conflict = false)
    (hR : ∀ x b, p.BlockOf x b → Restartable (MayStore b) (P b)) (ho : Topological p.view order)
    {S : Type} [DecidableEq S] (hrun : Relation.ReflTransGen (Attempt p.view (r.map TTree.id) P S) D₀ D)
    (hlast : Completion p.view (r.map TTree.id) P S D D') : D' = oneByOne P order D₀ :=
  C111_attempts_graph (hb.ok h) (hP.disciplined h hb) ho (fun n hn => by
    obtain ⟨x, hx⟩ := hb.of_nodes h hn
    exact hR x n hx) (reads_earlier h hb hc) hrun hlast

end Verif.Props
