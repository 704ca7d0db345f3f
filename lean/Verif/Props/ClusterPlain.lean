import Verif.Props.Cluster
import Verif.Props.PlainHang

/-! # C82 and C86 for plain pipelines

From the tasks that the user writes down to what the processes do. -/

namespace Verif.Props

open Verif Spec Pipeline

variable {d : Nat} {tasks r : List (Task d)} {p : Pipeline d} {S : Type} [DecidableEq S] {c : SysConf Nat}
  {es : List (ClEv (Block d) Nat S)} {x : Cluster (Block d) Nat (Nat × Int) S}

/-- C82, partial: in a plain pipeline, two processes with open connections that are in the process function with
different blocks of a task with `read_write_conflict` do not touch each other's data. -/
theorem C82_no_races_partial (h : PlainTasks tasks) (hb : Builds tasks r p) (hrun : ClRun p.view c es x)
    {t : Task d} (ht : Required tasks t) (hc : t.info.conflict = true) {s s' : S} {a b : Block d}
    (ha : p.BlockOf t.id a) (hbb : p.BlockOf t.id b) (hne : a ≠ b) (hs : s ∉ x.sys.closed) (hs' : s' ∉ x.sys.closed)
    (h1 : WorksOn x s a) (h2 : WorksOn x s' b) :
    ¬ Overlap a.readRoi b.writeRoi ∧ ¬ Overlap b.readRoi a.writeRoi ∧ ¬ Overlap a.writeRoi b.writeRoi := by
  have hok := hb.ok h
  obtain ⟨ks, hsr⟩ := ClRun.srun hok hrun
  have hi := hsr.inv hok
  have e1 := (C82_exclusive_partial hok hrun hs hs h1 h1).2
  have e2 := (C82_exclusive_partial hok hrun hs' hs' h2 h2).2
  have ha' : Held (evs x.sys.srv.out) a := (hi.held a).2 (by rw [e1]; simp)
  have hb' : Held (evs x.sys.srv.out) b := (hi.held b).2 (by rw [e2]; simp)
  refine ⟨C80_no_races h hb hi.run ht hc ha hbb hne ha' hb',
    C80_no_races h hb hi.run ht hc hbb ha (Ne.symm hne) hb' ha', ?_⟩
  obtain ⟨g, bs, hg, _, hbs⟩ := hb.graph h ht
  obtain ⟨g', bs', hg', hbs', hm⟩ := ha
  obtain ⟨g'', bs'', hg'', hbs'', hm'⟩ := hbb
  rw [hg] at hg' hg''
  cases hg'
  cases hg''
  rw [hbs] at hbs' hbs''
  cases hbs'
  cases hbs''
  exact C01_disjoint g (hb.wf h _ _ hg).1 hbs hm hm' hne

/-- C86 for plain pipelines: while a process is in the process function with a block, every block of an upstream
task that writes something it reads was accepted by its check function, or was processed. -/
theorem C86_data (h : PlainTasks tasks) (hb : Builds tasks r p) (hrun : ClRun p.view c es x)
    {t u : Task d} (ht : Required tasks t) (hu : u ∈ t.requires) {s : S} {a b : Block d} (ha : p.BlockOf u.id a)
    (hbb : p.BlockOf t.id b) (hov : Overlap a.writeRoi b.readRoi) (hw : WorksOn x s b) :
    .skip a ∈ x.sys.srv.out ∨ Ran p.view c es a EndsWell := by
  obtain ⟨k, hk, hp⟩ := hw
  have hbt := (built_of_init hb.init (hb.unique h)).1
  exact C86_order (hb.ok h) hrun hk (Or.inr (Or.inl hp))
    (Relation.TransGen.single ((edge_iff hbt (hb.wf h) hbb).2 ((C80_links h hb ht hu ha hbb).1.2 hov)))

/-- C86 for plain pipelines: when the server stops and no block has failed for good, the result is `True`, and
every voxel that a task should write lies in exactly one block of the task, which was accepted by the check function
or processed. -/
theorem C86_voxels (h : PlainTasks tasks) (hb : Builds tasks r p) (hrun : ClRun p.view c es x)
    (hstop : x.sys.srv.stop = true) (hf : ∀ n, ¬ Dead p.view (evs x.sys.srv.out) n) :
    Server.result p.view x.sys.srv = true ∧
    ∀ t, Required tasks t → (t.info.fit ≠ .valid ∨ t.info.Divides) → ∀ v, InRoi v t.info.writes →
      ∃! b, (p.BlockOf t.id b ∧ InRoi v b.writeRoi) ∧ (.skip b ∈ x.sys.srv.out ∨ Ran p.view c es b EndsWell) := by
  obtain ⟨h1, h2⟩ := C86_finished (hb.ok h) hrun hstop hf
  refine ⟨h1, ?_⟩
  intro t ht hcov v hv
  obtain ⟨b, h3, h4⟩ := hb.cover h ht hcov hv
  refine ⟨b, ⟨h3, h2 b (hb.mem_nodes h h3.1)⟩, ?_⟩
  rintro b' ⟨h5, _⟩
  exact h4 b' h5

end Verif.Props

namespace Verif

open Spec Pipeline Props

namespace Ex

/-- One worker per stage. -/
def stageSys : SysConf Nat := ⟨stageConf, fun _ => 1, 3⟩

/-- Client `s` gets a block of stage `t` and gives it back. -/
def stageJob (s : Nat) : List (SimpleCl (Block 1) Nat Nat) :=
  [.client s, .up s, .loop, .down s, .client s, .client s, .up s, .loop]

/-- Run events of the pipeline with three stages. -/
noncomputable def stageCl (l : List (SimpleCl (Block 1) Nat Nat)) : Option (Cluster (Block 1) Nat (Nat × Int) Nat) :=
  clExec stageView stageSys (l.map (SimpleCl.ev (anyPick (stageBlk 0 0))))

theorem stageCl_run {l : List (SimpleCl (Block 1) Nat Nat)} {α : Type}
    (f : Cluster (Block 1) Nat (Nat × Int) Nat → α) {v : α} (h : (stageCl l).map f = some v) :
    ∃ x, ClRun stageView stageSys (l.map (SimpleCl.ev (anyPick (stageBlk 0 0)))) x ∧ f x = v :=
  clExec_run (simpleCl_legal (anyPick_legal _) l) f h

end Ex

open Ex

/-- The worker of the second stage works on the block that needs the first block of the last one. -/
example : ∃ tasks r p c es, ∃ x : Cluster (Block 1) Nat (Nat × Int) Nat, PlainTasks tasks ∧ Builds tasks r p ∧
    ClRun p.view c es x ∧ WorksOn x 11 (stageBlk 1 0) ∧ p.BlockOf 1 (stageBlk 1 0) ∧ p.BlockOf 2 (stageBlk 2 0) ∧
    Overlap (stageBlk 2 0).writeRoi (stageBlk 1 0).readRoi := by
  have hx : (stageCl ([.connect 11 1, .connect 12 2] ++ stageJob 12 ++
      [.client 11, .up 11, .loop, .down 11, .client 11])).map (fun x =>
      decide ((x.conn 11).map (·.phase) = some (.working (stageBlk 1 0)))) = some true := by decide +kernel
  obtain ⟨x, h, e⟩ := stageCl_run _ hx
  have hbt := (built_of_init stage_builds.init (stage_builds.unique stage_plain)).1
  have hof : ∀ b ∈ stageView.nodes, (pipe [stage0, stage1, stage2]).BlockOf b.taskId b := by
    intro b hbm
    obtain ⟨x, hx⟩ := stage_builds.of_nodes stage_plain hbm
    rw [blockOf_taskId hbt (stage_builds.wf stage_plain) hx]
    exact hx
  exact ⟨_, _, _, _, _, x, stage_plain, stage_builds, h, Option.map_eq_some_iff.1 (of_decide_eq_true e),
    hof (stageBlk 1 0) (by decide +kernel), hof (stageBlk 2 0) (by decide +kernel),
    ⟨Vec.const 1 0, by unfold InRoi; decide +kernel, by unfold InRoi; decide +kernel⟩⟩

/-- All three stages are processed. -/
example : ∃ tasks r p c es, ∃ x : Cluster (Block 1) Nat (Nat × Int) Nat, PlainTasks tasks ∧ Builds tasks r p ∧
    ClRun p.view c es x ∧ x.sys.srv.stop = true ∧ ∀ n, ¬ Dead p.view (evs x.sys.srv.out) n := by
  have hx : (stageCl ([.connect 10 0, .connect 11 1, .connect 12 2] ++ stageJob 12 ++ stageJob 12 ++
      stageJob 11 ++ stageJob 11 ++ stageJob 10 ++ stageJob 10)).map (fun x =>
      decide (x.sys.srv.stop = true ∧ ∀ n ∈ stageView.nodes, ¬ Dead stageView (evs x.sys.srv.out) n)) = some true := by
    decide +kernel
  obtain ⟨x, h, e⟩ := stageCl_run _ hx
  obtain ⟨e1, e2⟩ := of_decide_eq_true e
  have hok := stage_builds.ok stage_plain
  obtain ⟨ks, hr⟩ := ClRun.srun (DGraph.OK.loose hok) h
  exact ⟨_, _, _, _, _, x, stage_plain, stage_builds, h, e1,
    fun n hd => e2 n (((hr.inv hok).run.inv hok).node _ hd.1) hd⟩

end Verif
