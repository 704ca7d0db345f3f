import Verif.Proofs.SerialData
import Verif.Props.ClusterData

/-! # C110: the data that the serial server leaves behind -/

namespace Verif.Props

open Verif Spec Pipeline

section
variable {N T K L V : Type} [DecidableEq N] [DecidableEq T] [DecidableEq K] [DecidableEq L]
  {g : DGraph N T K} {served : List T} {R W : N → L → Prop} {P : N → Prog L V} {D₀ D : L → V} {order : List N}
  {ks : List (SerTick N T)} {σ : Serial N T K} {k : SerTick N T}

/-- C110 for dependency graphs: at any time, where completed blocks store the data are as if all blocks had been
processed one after the other in any order that respects the dependencies, and where no block that was called stores
nothing has changed. -/
theorem C110_graph (hg : g.Loose) (hd : Disciplined g R W P) (ho : Topological g order)
    (h : SerDataRun g served P D₀ ks σ D) (hR : ∀ n, .release n .failed ∈ σ.out → Restartable (W n) (P n)) :
    (∀ n ∈ g.nodes, .release n .success ∈ σ.out ∨ .skip n ∈ σ.out → ∀ l, W n l → D l = oneByOne P order D₀ l) ∧
    (∀ l, (∀ n ∈ g.nodes, .call n ∈ σ.out → ¬ W n l) → D l = D₀ l) := by
  obtain ⟨cur, hr⟩ := h.dataRun hg
  obtain ⟨h1, h2, _⟩ := C108_graph hg hd ho hr (fun n hn => hR n ((mem_bad _ n).1 hn))
  refine ⟨fun n hn hdn => h1 n hn ?_, fun l hl => h2 l (fun n hn hh => hl n hn ((mem_hand _ n).1 hh))⟩
  rcases hdn with h3 | h3
  · exact Or.inl ((mem_good _ n).2 h3)
  · exact Or.inr ((mem_skip _ n).2 h3)

/-- C110: every execution without skipped blocks has one with data (in which all process functions come to their
ends). -/
theorem C110_possible (hg : g.Loose) (P : N → Prog L V) (D₀ : L → V) (h : SerRun g served ks σ)
    (hs : ∀ n, .skip n ∉ σ.out) : ∃ D, SerDataRun g served P D₀ ks σ D := by
  induction h with
  | init => exact ⟨D₀, .init⟩
  | @pass ks σ σ' k hr he hp hpass ih =>
    have hpre := pass_prefix hg (hr.inv hg) he hp hpass
    obtain ⟨D, hD⟩ := ih (fun n hn => hs n (hpre.subset hn))
    have hsk : ∀ n, .skip n ∈ σ'.out.drop σ.out.length → Present (P n) D :=
      fun n hn => absurd (List.mem_of_mem_drop hn) (hs n)
    by_cases hc : ∃ n, .call n ∈ σ'.out.drop σ.out.length
    · obtain ⟨n, hn⟩ := hc
      refine ⟨_, .pass (D' := (P n).run D) hD he hp hpass hsk (Or.inl ⟨n, hn, ?_⟩)⟩
      unfold CallDid
      split
      · exact ⟨_, Prog.steps_run (P n) D⟩
      · rfl
    · exact ⟨_, .pass hD he hp hpass hsk (Or.inr ⟨fun n hn => hc ⟨n, hn⟩, rfl⟩)⟩

end

variable {d : Nat} {tasks r : List (Task d)} {p : Pipeline d} {V : Type} {P : Block d → Prog (Nat × Coord d) V}
  {D₀ D : Nat × Coord d → V} {ks : List (SerTick (Block d) Nat)} {σ : Serial (Block d) Nat (Nat × Int)}
  {order : List (Block d)}

/-- C110, an execution that completes all blocks, with retries and skipped blocks: the process functions keep to their
ROIs, and those of blocks that are marked can be started again. -/
theorem C110_completed (h : PlainTasks tasks) (hb : Builds tasks r p) (hP : KeepToRois tasks p P)
    (ho : Topological p.view order) (hrun : SerDataRun p.view (r.map TTree.id) P D₀ ks σ D)
    (hR : ∀ b, .release b .failed ∈ σ.out → Restartable (MayStore b) (P b))
    (hall : ∀ x b, p.BlockOf x b → .release b .success ∈ σ.out ∨ .skip b ∈ σ.out) : D = oneByOne P order D₀ := by
  have hd := hP.disciplined h hb
  obtain ⟨h1, h2⟩ := C110_graph (hb.ok h) hd ho hrun hR
  refine data_all hd ho (fun l hl => h2 l (fun n hn _ => hl n hn)) (fun n hn => ?_)
  obtain ⟨x, hx⟩ := hb.of_nodes h hn
  exact h1 n hn (hall x n hx)

/-- C110: with process functions that keep to their ROIs and never mark a block, and without check functions, when
`run_blockwise(tasks, multiprocessing=False)` returns the data are those of processing the blocks one after the other,
in any order that respects the dependencies. -/
theorem C110_plain (h : PlainTasks tasks) (hb : Builds tasks r p) (hP : KeepToRois tasks p P)
    (ho : Topological p.view order) (hrun : SerDataRun p.view (r.map TTree.id) P D₀ ks σ D)
    (hk : ∀ k ∈ ks, SerTick.Succeeds k ∧ SerTick.NoSkips k) (hend : σ.ended = true) : D = oneByOne P order D₀ :=
  C110_completed h hb hP ho hrun
    (fun b hb' => absurd ((mem_bad _ b).2 hb') (no_bad (hb.ok h) hrun.run (fun k hk' => (hk k hk').1) b))
    (fun _ b hx => Or.inl
      ((C37_each_once_partial (hb.ok h) (hb.served h) hrun.run hk hend).1 b (hb.mem_nodes h hx)).2)

/-- C109, without and with multiprocessing, partial: a run of the server with worker processes (whose processes do nothing to
the data once their connections are closed) that stops without a block that has failed for good leaves the same data
behind. -/
theorem C109_as_serial_partial {S : Type} [DecidableEq S] {c : SysConf Nat} {es : List (ClEv (Block d) Nat S)}
    {x : Cluster (Block d) Nat (Nat × Int) S} {cur : S → Prog (Nat × Coord d) V} {D' : Nat × Coord d → V}
    (h : PlainTasks tasks) (hb : Builds tasks r p) (hP : KeepToRois tasks p P)
    (hrun : SerDataRun p.view (r.map TTree.id) P D₀ ks σ D)
    (hk : ∀ k ∈ ks, SerTick.Succeeds k ∧ SerTick.NoSkips k) (hend : σ.ended = true)
    (hrun' : ClDataRun p.view c P D₀ OnlyOpen es x D' cur)
    (hR : ∀ b, .bad b ∈ evs x.sys.srv.out → Restartable (MayStore b) (P b)) (hstop : x.sys.srv.stop = true)
    (hf : ∀ b, ¬ Dead p.view (evs x.sys.srv.out) b) : D = D' := by
  obtain ⟨order, ho⟩ := exists_topological (hb.ok h).loose
  rw [C110_plain h hb hP ho hrun hk hend, C109_plain_partial h hb hP hrun' hR hstop hf ho]

/-- C110, an exception: a process function raises an exception, after any number of steps; what completed blocks have
stored is as it should be, and outside the write ROIs of the blocks nothing has changed. -/
theorem C110_raised (h : PlainTasks tasks) (hb : Builds tasks r p) (hP : KeepToRois tasks p P)
    (ho : Topological p.view order) (hrun : SerDataRun p.view (r.map TTree.id) P D₀ ks σ D)
    (hR : ∀ b, .release b .failed ∈ σ.out → Restartable (MayStore b) (P b)) {k : SerTick (Block d) Nat}
    {D' : Nat × Coord d → V} (hr : SerDataRaises p.view (r.map TTree.id) P σ k D D') :
    (∀ t, Required tasks t → ∀ b, p.BlockOf t.id b → .release b .success ∈ σ.out ∨ .skip b ∈ σ.out →
      ∀ v, InRoi v b.writeRoi → D' (t.id, v) = oneByOne P order D₀ (t.id, v)) ∧
    (∀ x v, (∀ b, p.BlockOf x b → ¬ InRoi v b.writeRoi) → D' (x, v) = D₀ (x, v)) := by
  obtain ⟨es, st, cur, h1, h2, _⟩ := hrun.raised (hb.ok h) hr
  obtain ⟨c1, c2, _⟩ := C108_data h hb hP h1 (fun b hbad => by
    rcases List.mem_append.1 hbad with h3 | h3
    · exact hR b ((mem_bad _ b).1 h3)
    · exact absurd h3 (h2 b)) ho
  refine ⟨fun t ht b hbb hdn v hv => c1 t ht b hbb ?_ v hv, fun x v hx => c2 x v (fun b hbb hv => absurd hv (hx b hbb))⟩
  rcases hdn with h3 | h3
  · exact Or.inl (List.mem_append_left _ ((mem_good _ b).2 h3))
  · exact Or.inr (List.mem_append_left _ ((mem_skip _ b).2 h3))

/-- C110, run again: a first run ends with an exception in a process function; a second run over the same data
completes all blocks (some of them perhaps by skipping).  If no task has `read_write_conflict` and all process
functions can be started again, the data are as if the first run had not been interrupted. -/
theorem C110_resumed (h : PlainTasks tasks) (hb : Builds tasks r p) (hP : KeepToRois tasks p P)
    (hc : ∀ t, Required tasks t → t.info.conflict = false)
    (hR : ∀ x b, p.BlockOf x b → Restartable (MayStore b) (P b))
    (ho : Topological p.view order) (hrun : SerDataRun p.view (r.map TTree.id) P D₀ ks σ D)
    {k : SerTick (Block d) Nat} {D' D'' : Nat × Coord d → V} (hr : SerDataRaises p.view (r.map TTree.id) P σ k D D')
    {ks' : List (SerTick (Block d) Nat)} {σ' : Serial (Block d) Nat (Nat × Int)}
    (hrun' : SerDataRun p.view (r.map TTree.id) P D' ks' σ' D'')
    (hall : ∀ x b, p.BlockOf x b → .release b .success ∈ σ'.out ∨ .skip b ∈ σ'.out) : D'' = oneByOne P order D₀ := by
  have hok := hb.ok h
  have hbt := built_of_init hb.init (hb.unique h)
  have hbad : ∀ {D₀ D : Nat × Coord d → V} {ks : List (SerTick (Block d) Nat)} {σ : Serial (Block d) Nat (Nat × Int)},
      SerDataRun p.view (r.map TTree.id) P D₀ ks σ D → ∀ b, .release b .failed ∈ σ.out →
      Restartable (MayStore b) (P b) := by
    intro D₀ D ks σ hrun b hb'
    obtain ⟨x, hx⟩ := hb.of_nodes h (((hrun.run.inv hok).run.inv hok).node _ ((mem_bad _ b).2 hb'))
    exact hR x b hx
  rw [C110_completed h hb hP ho hrun' (hbad hrun') hall]
  refine C108_resume hok (hP.disciplined h hb) ho (fun n hn => ?_) (reads_earlier h hb hc) (fun l hl => ?_)
  · obtain ⟨x, hx⟩ := hb.of_nodes h hn
    exact hR x n hx
  · exact (C110_raised h hb hP ho hrun (hbad hrun) hr).2 l.1 l.2 (fun b hbb hv =>
      hl b (hb.mem_nodes h hbb) ⟨(blockOf_taskId hbt.1 (hb.wf h) hbb).symm, hv⟩)

end Verif.Props
