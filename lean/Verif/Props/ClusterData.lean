import Verif.Proofs.ClusterShared
import Verif.Props.ClusterPlain
import Verif.Props.Data

/-! # C109: the data that the worker processes leave behind

`C108` at the level of the server with its worker processes.  A process whose connection is closed may still be in
the process function while the block is processed again by somebody else. -/

namespace Verif.Props

open Verif Spec Pipeline

section
variable {N T K S L V : Type} [DecidableEq N] [DecidableEq T] [DecidableEq K] [DecidableEq S] [DecidableEq L]
  {g : DGraph N T K} {c : SysConf T} {es : List (ClEv N T S)} {x : Cluster N T K S} {R W : N → L → Prop}
  {P : N → Prog L V} {D₀ D : L → V} {order : List N} {cur : S → Prog L V} {may : Cluster N T K S → S → Prop}

/-- All blocks are done when the server has stopped and no block has failed for good. -/
theorem all_done (hg : g.Loose) (h : ClRun g c es x) (hstop : x.sys.srv.stop = true)
    (hf : ∀ n, ¬ Dead g (evs x.sys.srv.out) n) : ∀ n ∈ g.nodes, Done (evs x.sys.srv.out) n := by
  obtain ⟨ks, hsr⟩ := ClRun.srun hg h
  have hx : OrphanExact g (evs x.sys.srv.out) := exact_of_one (fun n _ f f' hd _ _ _ => absurd hd (hf f))
  intro n hn
  rcases ((C34_stop_means_finished_partial hg hsr hx).1 hstop).1 n hn with h1 | h1 | ⟨f, h1, _⟩
  · exact h1
  · exact absurd h1 (hf n)
  · exact absurd h1 (hf f)

omit [DecidableEq N] [DecidableEq T] [DecidableEq K] in
/-- Data that are right for all blocks and unchanged elsewhere are the data of the sequential processing. -/
theorem data_all (hd : Disciplined g R W P) (ho : Topological g order) (hoff : ∀ l, (∀ n ∈ g.nodes, ¬ W n l) → D l = D₀ l)
    (hall : ∀ n ∈ g.nodes, ∀ l, W n l → D l = oneByOne P order D₀ l) : D = oneByOne P order D₀ := by
  funext l
  by_cases hw : ∃ n ∈ g.nodes, W n l
  · obtain ⟨n, hn, hnl⟩ := hw
    exact hall n hn l hnl
  · rw [hoff l (fun n hn hnl => hw ⟨n, hn, hnl⟩)]
    exact (oneByOne_frame (R := R) (W := W) (fun m hm => hd.uses m ((ho.mem m).1 hm))
      (fun m hm hml => hw ⟨m, (ho.mem m).1 hm, hml⟩) _).symm

/-- C109, partial: if processes do nothing to the data once the server considers their connections closed, then where
completed blocks store the data are as if all blocks had been processed one after the other, where no block that was
handed out stores nothing has changed, and if all blocks are done the data are those of the sequential processing.
(In general it is false, `C109_false`.) -/
theorem C109_open_partial (hg : g.Loose) (hd : Disciplined g R W P) (ho : Topological g order)
    (h : ClDataRun g c P D₀ OnlyOpen es x D cur)
    (hR : ∀ n, .bad n ∈ evs x.sys.srv.out → Restartable (W n) (P n)) :
    (∀ n ∈ g.nodes, Done (evs x.sys.srv.out) n → ∀ l, W n l → D l = oneByOne P order D₀ l) ∧
    (∀ l, (∀ n ∈ g.nodes, .hand n ∈ evs x.sys.srv.out → ¬ W n l) → D l = D₀ l) ∧
    ((∀ n ∈ g.nodes, Done (evs x.sys.srv.out) n) → D = oneByOne P order D₀) := by
  have hi := h.open hg hd ho hR
  refine ⟨hi.done, fun l hl => ?_, fun hall => data_all hd ho hi.off (fun n hn => hi.done n hn (hall n hn))⟩
  by_cases hw : ∃ n ∈ g.nodes, W n l
  · obtain ⟨n, hn, hnl⟩ := hw
    exact hi.fresh n hn (fun hh => hl n hn hh hnl) l hnl
  · exact hi.off l (fun n hn hnl => hw ⟨n, hn, hnl⟩)

/-- C109, partial: whatever processes with closed connections still do, the same holds for programs that store no
temporary values and do not look at what they store, if no block looks at what is stored later; moreover at any time
every location has its first or its final value. -/
theorem C109_straight_partial (hg : g.Loose) (hd : Disciplined g R W P) (ho : Topological g order)
    (hfirst : ∀ a ∈ g.nodes, ∀ b ∈ g.nodes, ∀ l, W a l → R b l → a ≠ b → Anc g a b)
    (hst : ∀ n ∈ g.nodes, Straight (R n) (W n) (P n)) (h : ClDataRun g c P D₀ may es x D cur) :
    (∀ n ∈ g.nodes, Done (evs x.sys.srv.out) n → ∀ l, W n l → D l = oneByOne P order D₀ l) ∧
    (∀ l, D l = D₀ l ∨ D l = oneByOne P order D₀ l) ∧
    ((∀ n ∈ g.nodes, Done (evs x.sys.srv.out) n) → D = oneByOne P order D₀) := by
  have hi := h.calm hg hd ho hfirst hst
  exact ⟨hi.done, hi.two, fun hall => data_all hd ho hi.off (fun n hn => hi.done n hn (hall n hn))⟩

end

variable {d : Nat} {tasks r : List (Task d)} {p : Pipeline d} {S : Type} [DecidableEq S] {c : SysConf Nat}
  {es : List (ClEv (Block d) Nat S)} {x : Cluster (Block d) Nat (Nat × Int) S} {V : Type}
  {P : Block d → Prog (Nat × Coord d) V} {D₀ D : Nat × Coord d → V} {cur : S → Prog (Nat × Coord d) V}
  {may : Cluster (Block d) Nat (Nat × Int) S → S → Prop}

/-- Without `read_write_conflict`, blocks look at nothing that is stored later. -/
theorem reads_earlier (h : PlainTasks tasks) (hb : Builds tasks r p)
    (hc : ∀ t, Required tasks t → t.info.conflict = false) :
    ∀ a ∈ p.view.nodes, ∀ b ∈ p.view.nodes, ∀ l, MayStore a l → MayRead tasks b l → a ≠ b → Anc p.view a b := by
  have hbt := built_of_init hb.init (hb.unique h)
  have hnode : ∀ n ∈ p.view.nodes, ∃ x, p.BlockOf x n ∧ n.taskId = x := fun n hn => by
    obtain ⟨x, hx⟩ := hb.of_nodes h hn
    exact ⟨x, hx, blockOf_taskId hbt.1 (hb.wf h) hx⟩
  intro a ha b hbn l hal hbl hne
  rcases hbl with ⟨t, t1, t2, ⟨u, hu, e⟩, hv⟩ | ⟨t, t1, _, htc, _⟩ | hno
  · obtain ⟨x, hx, hxa⟩ := hnode a ha
    obtain ⟨y, hy, hyb⟩ := hnode b hbn
    have ex : x = u.id := by rw [← hxa, ← hal.1, e]
    have ey : y = t.id := by rw [← hyb, t2]
    subst ex ey
    exact Relation.TransGen.single ((edge_iff hbt.1 (hb.wf h) hy).2
      ((C80_links h hb t1 hu hx hy).1.2 ⟨l.2, hal.2, hv⟩))
  · rw [hc t t1] at htc
    cases htc
  · obtain ⟨x, hx, hxa⟩ := hnode a ha
    obtain ⟨g, _, hg, _⟩ := id hx
    obtain ⟨t, t1, t2, _⟩ := graphs_init hb.init hg
    exact absurd (hal.1.trans (hxa.trans t2.symm)) (hno t ((flatten_required h.unique hb.flat t).1 t1))

/-- C109 for plain pipelines, partial: the process functions keep to their ROIs, those of blocks that fail can be
started again, and processes with closed connections do nothing to the data.  When the server has stopped and no block
has failed for good, the data are those of processing the blocks one after the other, in any order that respects the
dependencies. -/
theorem C109_plain_partial (h : PlainTasks tasks) (hb : Builds tasks r p) (hP : KeepToRois tasks p P)
    (hrun : ClDataRun p.view c P D₀ OnlyOpen es x D cur)
    (hR : ∀ b, .bad b ∈ evs x.sys.srv.out → Restartable (MayStore b) (P b)) (hstop : x.sys.srv.stop = true)
    (hf : ∀ b, ¬ Dead p.view (evs x.sys.srv.out) b) {order : List (Block d)} (ho : Topological p.view order) :
    D = oneByOne P order D₀ :=
  (C109_open_partial (hb.ok h) (hP.disciplined h hb) ho hrun hR).2.2
    (all_done (hb.ok h) (ClDataRun.run hrun) hstop hf)

/-- C109 for plain pipelines, partial: the process functions keep to their ROIs, store no temporary values and do not
look at what they store, and no task has `read_write_conflict`; processes with closed connections may go on.  At any
time every voxel has its first or its final value, and when the server has stopped and no block has failed for good,
the data are those of processing the blocks one after the other. -/
theorem C109_plain_straight_partial (h : PlainTasks tasks) (hb : Builds tasks r p) (hP : KeepToRois tasks p P)
    (hc : ∀ t, Required tasks t → t.info.conflict = false)
    (hst : ∀ y b, p.BlockOf y b → Straight (MayRead tasks b) (MayStore b) (P b))
    (hrun : ClDataRun p.view c P D₀ may es x D cur) {order : List (Block d)} (ho : Topological p.view order) :
    (∀ l, D l = D₀ l ∨ D l = oneByOne P order D₀ l) ∧
    (∀ t, Required tasks t → ∀ b, p.BlockOf t.id b → Done (evs x.sys.srv.out) b → ∀ v, InRoi v b.writeRoi →
      D (t.id, v) = oneByOne P order D₀ (t.id, v)) ∧
    (x.sys.srv.stop = true → (∀ b, ¬ Dead p.view (evs x.sys.srv.out) b) → D = oneByOne P order D₀) := by
  have hbt := built_of_init hb.init (hb.unique h)
  obtain ⟨h1, h2, h3⟩ := C109_straight_partial (hb.ok h) (hP.disciplined h hb) ho (reads_earlier h hb hc)
    (fun n hn => by obtain ⟨y, hy⟩ := hb.of_nodes h hn; exact hst y n hy) hrun
  exact ⟨h2, fun t _ b hbb hdn v hv => h1 b (hb.mem_nodes h hbb) hdn (t.id, v)
    ⟨(blockOf_taskId hbt.1 (hb.wf h) hbb).symm, hv⟩,
    fun hstop hf => h3 (all_done (hb.ok h) (ClDataRun.run hrun) hstop hf)⟩

end Verif.Props
