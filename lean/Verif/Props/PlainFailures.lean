import Verif.Props.PlainHang
import Verif.Props.Serial
import Verif.Props.ServerEnd

/-! # Ordinary tasks and pipelines for which claims are false

The counterexamples to C22, C28, C34, C35, C38, C39, C41, C53, C56 and C70 are given for dependency graphs that were
chosen by hand.  Here are executions of graphs that daisy builds for tasks without anything unusual: for C22, C34,
C35 and C70 a single two-dimensional task with a context of one block, of which two or three blocks fail. -/

namespace Verif

open Spec Pipeline Props

/-- `set.pop` takes the first element of `l` that is in the set, if there is one. -/
noncomputable def firstPick {d : Nat} (l : List (Block d)) (b : Block d) : Nat → Finset (Block d) → Block d :=
  fun i s => match l.find? (fun x => x ∈ s) with
    | some x => x
    | none => anyPick b i s

theorem firstPick_legal {d : Nat} (l : List (Block d)) (b : Block d) : LegalPick (firstPick l b) := by
  intro i s h
  unfold firstPick
  split
  · rename_i x hx
    have := List.find?_some hx
    exact of_decide_eq_true this
  · exact anyPick_legal b i s h

theorem tick_legal {N T S : Type} [DecidableEq N] [DecidableEq S] {pick : Nat → Finset N → N} (h : LegalPick pick)
    (r : Server.Recv N T S) (acc : List N) :
    LegalPick (tick pick r acc).pick ∧ ∀ n, LegalPick ((tick pick r acc).pickLost n) := ⟨h, fun _ => h⟩

theorem not_orphan_of_up {N T K : Type} [DecidableEq N] {g : DGraph N T K} {tr : List (Ev N)} {n m : N} (h : g.up n = [m])
    (h1 : ¬ Dead g tr m) (h2 : ¬ Orphan g tr m) : ¬ Orphan g tr n := by
  rintro ⟨f, hf, ha⟩
  rcases (Relation.TransGen.tail'_iff).1 ha with ⟨b, hb1, hb2⟩
  have hb : b ∈ g.up n := hb2
  rw [h] at hb
  obtain rfl := List.mem_singleton.1 hb
  rcases Relation.reflTransGen_iff_eq_or_transGen.1 hb1 with he | ht
  · exact h1 (he ▸ hf)
  · exact h2 ⟨f, hf, ht⟩

/-- A single task with everything that the theorems about plain pipelines ask for. -/
def Ex.PlainSingle {d : Nat} (p : Pipeline d) : Prop :=
  ∃ t : Task d, t.requires = [] ∧ PlainTasks [t] ∧ Builds [t] [t] p

/-- The same for several tasks, with the list that `run_blockwise` makes of them. -/
def Ex.PlainPipe {d : Nat} (p : Pipeline d) (served : List Nat) : Prop :=
  ∃ tasks r : List (Task d), PlainTasks tasks ∧ Builds tasks r p ∧ served = r.map TTree.id

theorem Ex.PlainSingle.ok {d : Nat} {p : Pipeline d} (h : Ex.PlainSingle p) : p.view.OK := by
  obtain ⟨t, _, h1, h2⟩ := h
  exact h2.ok h1

theorem Ex.PlainPipe.ok {d : Nat} {p : Pipeline d} {s : List Nat} (h : Ex.PlainPipe p s) : p.view.OK := by
  obtain ⟨t, _, h1, h2, _⟩ := h
  exact h2.ok h1

namespace Ex.Fail

/-- Writes `w × h` blocks of one voxel, with a context of one voxel on all sides. -/
def grid (w h : Int) : Task 2 := .node 0 ⟨r2 0 (w + 2) 0 (h + 2), r2 0 3 0 3, r2 1 2 1 2, true, .valid, 0⟩ []

/-- What the constructor makes of it. -/
def gridPipe (w h : Int) : Pipeline 2 :=
  match Pipeline.init [grid w h] with
  | .ok p => p
  | .error _ => ⟨TaskGraph.empty, fun _ => none⟩

theorem grid_plain {w h : Int} (hp : (grid w h).info.Plain) : PlainTasks [grid w h] := by
  refine plainTasks_of (L := [grid w h]) (by simp) (by simp [grid, TTree.requires]) (by simp) ?_ ?_ ?_
  · intro t ht
    rw [List.mem_singleton.1 ht]
    exact hp
  · intro t ht hr
    rw [List.mem_singleton.1 ht] at hr
    exact absurd rfl hr
  · intro t ht hr
    rw [List.mem_singleton.1 ht] at hr
    exact absurd rfl hr

theorem grid44 : PlainSingle (gridPipe 4 4) :=
  ⟨grid 4 4, rfl, grid_plain ⟨by decide, by decide, by decide, by decide, Or.inl (by decide), by decide⟩,
    by rfl, by rfl, by rfl⟩

theorem grid65 : PlainSingle (gridPipe 6 5) :=
  ⟨grid 6 5, rfl, grid_plain ⟨by decide, by decide, by decide, by decide, Or.inl (by decide), by decide⟩,
    by rfl, by rfl, by rfl⟩

/-- The block in column `x` and row `y`. -/
def gridBlk (w h x y : Int) : Block 2 :=
  Block.new (r2 0 (w + 2) 0 (h + 2)) (r2 x (x + 3) y (y + 3)) (r2 (x + 1) (x + 2) (y + 1) (y + 2)) 0

/-- One task is served. -/
def gridConf : SConf Nat := ⟨[0], fun _ => none⟩

/-- What the server receives: a request, a block that completed, a block that failed. -/
inductive GridMsg where
  | ask (s : Nat)
  | ok (x y : Int) (s : Nat)
  | bad (x y : Int) (s : Nat)

def GridMsg.recv (w h : Int) : GridMsg → Server.Recv (Block 2) Nat Nat
  | .ask s => .msg (.acquire 0) s
  | .ok x y s => .msg (.release (gridBlk w h x y) .success) s
  | .bad x y s => .msg (.release (gridBlk w h x y) .failed) s

noncomputable def gridPick (w h : Int) : Nat → Finset (Block 2) → Block 2 :=
  firstPick (gridPipe w h).view.nodes (gridBlk w h 0 0)

theorem gridPick_legal (w h : Int) : LegalPick (gridPick w h) := firstPick_legal _ _

noncomputable def gridTicks (w h : Int) (ms : List GridMsg) : List (Server.Tick (Block 2) Nat Nat) :=
  ms.map (fun m => tick (gridPick w h) (m.recv w h))

theorem gridTicks_legal (w h : Int) (ms : List GridMsg) :
    ∀ k ∈ gridTicks w h ms, LegalPick k.pick ∧ ∀ n, LegalPick (k.pickLost n) := by
  intro k hk
  obtain ⟨r, _, he⟩ := List.mem_map.1 hk
  rw [← he]
  exact tick_legal (gridPick_legal w h) _ _

/-- Of 16 blocks 4 complete, 3 fail, and 9 depend on these. -/
def gridActs : List (Act (Block 2) Nat) :=
  [.acq 0 [], .acq 0 [], .acq 0 [], .acq 0 [], .bad (gridBlk 4 4 3 3), .good (gridBlk 4 4 1 3),
    .good (gridBlk 4 4 1 1), .acq 0 [], .acq 0 [], .good (gridBlk 4 4 1 2), .bad (gridBlk 4 4 1 0), .acq 0 [],
    .good (gridBlk 4 4 0 3), .bad (gridBlk 4 4 3 1)]

/-- The same, seen from the server. -/
def gridMsgs : List GridMsg :=
  [.ask 10, .ask 11, .ask 12, .ask 13, .bad 3 3 13, .ok 1 3 11, .ok 1 1 10, .ask 14, .ask 15, .ok 1 2 15,
    .bad 1 0 14, .ask 16, .ok 0 3 16, .bad 3 1 12]

end Ex.Fail

open Ex Ex.Fail

/-- C22 is false for a single task: 3 of its 16 blocks fail for good, 4 complete, 9 are orphans, but 10 orphans are
counted, so that the task never counts as done. -/
theorem C22_false_single : ∃ p : Pipeline 2, Ex.PlainSingle p ∧ ∃ tr st, Run p.view tr st ∧ (∀ n, ¬ Held tr n) ∧
    st.getReadyTasks p.view = [] ∧ (∀ n ∈ p.view.nodes, Done tr n ∨ Dead p.view tr n ∨ Orphan p.view tr n) ∧
    (st.states 0).orphaned = 10 ∧ cnt p.view 0 (Orphan p.view tr) = 9 ∧ (st.states 0).isDone = false := by
  have hx : (exec (gridPipe 4 4).view (gridPick 4 4) gridActs).map (fun p => decide ((∀ e ∈ p.1, ¬ Held p.1 e.node) ∧
      p.2.getReadyTasks (gridPipe 4 4).view = [] ∧ (p.2.states 0).orphaned = 10 ∧ (p.2.states 0).completed = 4 ∧
      (p.2.states 0).failed = 3 ∧ (p.2.states 0).total = 16 ∧ (p.2.states 0).isDone = false)) = some true := by
    decide +kernel
  obtain ⟨tr, st, h, e⟩ := exec_map (gridPick_legal 4 4) _ hx
  obtain ⟨e1, e2, e3, e4, e5, e6, e7⟩ := of_decide_eq_true e
  have hok := grid44.ok
  have hh := Props.not_held_of e1
  have hfin := C20_no_block_forgotten_partial hok h e2 hh
  refine ⟨_, grid44, tr, st, h, hh, e2, hfin, e3, ?_, e7⟩
  have hf := finished_count hok h 0
  have h0 : cnt (gridPipe 4 4).view 0 (fun n => ¬ (Done tr n ∨ Dead (gridPipe 4 4).view tr n ∨
      Orphan (gridPipe 4 4).view tr n)) = 0 := cnt_eq_zero.2 (fun n hn _ => not_not.2 (hfin n hn))
  rw [h0, e4, e5, e6] at hf
  omega

/-- C34 is false for a single task: 3 of its 16 blocks fail for good, 5 complete, and the server stops and announces
the task as done while client 18 still has a block, which neither completed nor failed nor is downstream of a failed
block. -/
theorem C34_false_single : ∃ p : Pipeline 2, Ex.PlainSingle p ∧ ∃ cfg ks σ n,
    SRun (S := Nat) p.view cfg ks σ ∧ σ.stop = true ∧ .taskDone 0 ∈ σ.out ∧ holder σ.out n = some 18 ∧
    ¬ Done (evs σ.out) n ∧ ¬ Dead p.view (evs σ.out) n ∧ ¬ Orphan p.view (evs σ.out) n := by
  have hx : (sexec (gridPipe 4 4).view gridConf (gridTicks 4 4 [.ask 10, .ask 11, .ok 1 3 11, .ask 12, .ask 13,
      .bad 3 3 13, .ok 1 1 10, .ask 14, .ask 15, .ok 1 2 15, .ask 16, .bad 0 3 16, .ok 1 0 14, .ask 17, .ok 0 1 17,
      .ask 18, .bad 3 1 12])).map (fun σ => decide (σ.stop = true ∧
      .taskDone 0 ∈ σ.out ∧ holder σ.out (gridBlk 4 4 0 0) = some 18)) = some true := by decide +kernel
  obtain ⟨σ, h, e⟩ := sexec_run (gridTicks_legal _ _ _) _ hx
  obtain ⟨e1, e2, e3⟩ := of_decide_eq_true e
  have hok := grid44.ok
  have hi := h.inv hok
  have hh := (hi.held (gridBlk 4 4 0 0)).2 (by rw [e3]; exact Option.some_ne_none _)
  have hd := C19_disjoint_partial hok hi.run (gridBlk 4 4 0 0)
  exact ⟨_, grid44, _, _, σ, _, h, e1, e2, e3, by tauto, by tauto, by tauto⟩

/-- C35 is false for a single task: client 22 is told to shut down although a block waits for another one, which
client 15 has; neither of them failed or depends on a failed block. -/
theorem C35_false_single : ∃ p : Pipeline 2, Ex.PlainSingle p ∧ ∃ cfg ks σ n m,
    SRun (S := Nat) p.view cfg ks σ ∧ .shutdown 22 0 ∈ σ.out ∧ n ∈ p.view.nodes ∧ p.view.up n = [m] ∧
    holder σ.out m = some 15 ∧ holder σ.out n = none ∧ ¬ Done (evs σ.out) n ∧ ¬ Dead p.view (evs σ.out) n ∧
    ¬ Orphan p.view (evs σ.out) n := by
  have hx : (sexec (gridPipe 6 5).view gridConf (gridTicks 6 5 [.ask 10, .ok 1 1 10, .ask 11, .ask 12, .ask 13,
      .bad 3 3 13, .ask 14, .bad 5 1 14, .ok 3 1 12, .ok 1 3 11, .ask 15, .ask 16, .bad 1 0 16, .ask 17, .ask 18,
      .ok 1 2 18, .ask 19, .ok 1 4 19, .ask 20, .ok 0 3 20, .ask 21, .bad 3 0 17, .ask 22])).map
      (fun σ => decide (.shutdown 22 0 ∈ σ.out ∧ holder σ.out (gridBlk 6 5 5 3) = some 15 ∧
        holder σ.out (gridBlk 6 5 5 4) = none ∧ ¬ Done (evs σ.out) (gridBlk 6 5 5 4) ∧
        .bad (gridBlk 6 5 5 4) ∉ evs σ.out)) = some true := by decide +kernel
  obtain ⟨σ, h, e⟩ := sexec_run (gridTicks_legal _ _ _) _ hx
  obtain ⟨e1, e2, e3, e4, e5⟩ := of_decide_eq_true e
  have hok := grid65.ok
  have hi := h.inv hok
  have hh := (hi.held (gridBlk 6 5 5 3)).2 (by rw [e2]; exact Option.some_ne_none _)
  have hd := C19_disjoint_partial hok hi.run (gridBlk 6 5 5 3)
  have hup : (gridPipe 6 5).view.up (gridBlk 6 5 5 4) = [gridBlk 6 5 5 3] := by decide +kernel
  exact ⟨_, grid65, _, _, σ, gridBlk 6 5 5 4, gridBlk 6 5 5 3, h, e1, by decide +kernel, hup, e2, e3, e4,
    fun hc => e5 hc.1, not_orphan_of_up hup (by tauto) (by tauto)⟩

/-- C70 is false for a single task: all blocks are finished, nobody has a block, and whatever happens from now on the
server does not stop. -/
theorem C70_false_single : ∃ p : Pipeline 2, Ex.PlainSingle p ∧ ∃ cfg ks σ, SRun (S := Nat) p.view cfg ks σ ∧
    (∀ n ∈ p.view.nodes, p.view.task n ∈ cfg.served) ∧ (∀ n, holder σ.out n = none) ∧
    (∀ n ∈ p.view.nodes, Done (evs σ.out) n ∨ Dead p.view (evs σ.out) n ∨ Orphan p.view (evs σ.out) n) ∧
    ∀ ks' σ', SSteps p.view cfg σ ks' σ' → σ'.stop = false := by
  have hx : (sexec (gridPipe 4 4).view gridConf (gridTicks 4 4 gridMsgs)).map (fun σ => decide (
      (∀ n ∈ (gridPipe 4 4).view.nodes, holder σ.out n = none) ∧
      (∀ n ∈ (gridPipe 4 4).view.nodes, ¬ Ready (gridPipe 4 4).view (evs σ.out) n) ∧
      σ.sched.getReadyTasks (gridPipe 4 4).view = [] ∧
      σ.stop = false ∧ (σ.sched.states 0).isDone = false)) = some true := by decide +kernel
  obtain ⟨σ, h, e⟩ := sexec_run (gridTicks_legal _ _ _) _ hx
  obtain ⟨e1, e2, e3, e4, e5⟩ := of_decide_eq_true e
  have hok := grid44.ok
  have hi := h.inv hok
  have e1' : ∀ n, holder σ.out n = none := by
    intro n
    by_contra hc
    exact hc (e1 n (hi.toSCore.mem hok hc))
  have hh : ∀ n, ¬ Held (evs σ.out) n := fun n hn => (hi.held n).1 hn (e1' n)
  have : Nonempty (Block 2) := ⟨gridBlk 4 4 0 0⟩
  refine ⟨_, grid44, gridConf, _, σ, h, by decide +kernel, e1', C20_no_block_forgotten_partial hok hi.run e3 hh, ?_⟩
  intro ks' σ' h'
  cases hst : σ'.stop with
  | false => rfl
  | true =>
    have := (C70_counters_decide hok h e4 (fun n hn => e2 n hn.1 hn) e1').1 ⟨ks', σ', h', hst⟩ 0 (by decide +kernel)
    rw [e5] at this
    cases this

/-! ### One dimension -/

namespace Ex.Fail

theorem single1 {t : Task 1} (hr : t.requires = []) (hp : t.info.Plain) (h1 : Convenience.flatten [t] = .ok [t])
    (h2 : Pipeline.init [t] = .ok (pipe [t])) (h3 : (pipe [t]).dgraph = .ok (pipe [t]).view) :
    PlainSingle (pipe [t]) := by
  refine ⟨t, hr, plainTasks_of (L := [t]) (by simp) ?_ (by simp) ?_ ?_ ?_, h1, h2, h3⟩
  · intro s hs u hu
    rw [List.mem_singleton.1 hs, hr] at hu
    cases hu
  · intro s hs
    rw [List.mem_singleton.1 hs]
    exact hp
  · intro s hs hc
    rw [List.mem_singleton.1 hs] at hc
    exact absurd hr hc
  · intro s hs hc
    rw [List.mem_singleton.1 hs] at hc
    exact absurd hr hc

/-- Three blocks of one voxel, with a context of one voxel: the middle one first, then the others. -/
def mid : Task 1 := task1 0 (r1 0 5) (r1 0 3) (r1 1 2) true .valid []

/-- One block, which is tried twice. -/
def twice : Task 1 := .node 0 ⟨r1 0 1, r1 0 1, r1 0 1, true, .valid, 1⟩ []

/-- One block. -/
def once : Task 1 := task1 0 (r1 0 1) (r1 0 1) (r1 0 1) true .valid []

theorem mid_single : PlainSingle (pipe [mid]) :=
  single1 rfl ⟨by decide, by decide, by decide, by decide, Or.inl (by decide), by decide⟩ (by rfl) (by rfl) (by rfl)

theorem twice_single : PlainSingle (pipe [twice]) :=
  single1 rfl ⟨by decide, by decide, by decide, by decide, Or.inl (by decide), by decide⟩ (by rfl) (by rfl) (by rfl)

theorem once_single : PlainSingle (pipe [once]) :=
  single1 rfl ⟨by decide, by decide, by decide, by decide, Or.inl (by decide), by decide⟩ (by rfl) (by rfl) (by rfl)

end Ex.Fail

/-- C28 is false for a single task: all its three blocks have completed, the first one is still in the surface. -/
theorem C28_false_single : ∃ p : Pipeline 1, Ex.PlainSingle p ∧ ∃ tr st n, Run p.view tr st ∧
    (∀ m ∈ p.view.nodes, Done tr m) ∧ n ∈ st.rs.surface := by
  have hx : (exec (pipe [mid]).view (anyPick (blk1 0 0 3 1 2 1)) [.acq 0 [], .good (blk1 0 1 4 2 3 2), .acq 0 [],
      .acq 0 [], .good (blk1 0 0 3 1 2 1), .good (blk1 0 2 5 3 4 3)]).map (fun p => decide (
      (∀ m ∈ (pipe [mid]).view.nodes, Done p.1 m) ∧ blk1 0 1 4 2 3 2 ∈ p.2.rs.surface)) = some true := by
    decide +kernel
  obtain ⟨tr, st, h, e⟩ := exec_map (anyPick_legal _) _ hx
  obtain ⟨e1, e2⟩ := of_decide_eq_true e
  exact ⟨_, mid_single, tr, st, _, h, e1, e2⟩

/-- C39 is false for a task with one block: the first attempt is marked FAILED, the retry is not, and yet the block ends
up failed. -/
theorem C39_false_single : ∃ p : Pipeline 1, Ex.PlainSingle p ∧ ∃ n k1 k2 σ, SerRun p.view [0] [k1, k2] σ ∧
    p.view.nodes = [n] ∧ k1.proc n = .set .failed ∧ k2.proc n = .keep ∧ σ.out.count (.call n) = 2 ∧ σ.ended = true ∧
    Dead p.view (serEvs σ.out) n ∧ (σ.sched.states 0).failed = 1 ∧ (σ.sched.states 0).completed = 0 := by
  have hx : (serExec (pipe [twice]).view [0] [serTick (anyPick (blk1 0 0 1 0 1 0)) [] [blk1 0 0 1 0 1 0],
      serTick (anyPick (blk1 0 0 1 0 1 0))]).map (fun σ => decide (σ.out.count (.call (blk1 0 0 1 0 1 0)) = 2 ∧
        σ.ended = true ∧ Dead (pipe [twice]).view (serEvs σ.out) (blk1 0 0 1 0 1 0) ∧
        (σ.sched.states 0).failed = 1 ∧ (σ.sched.states 0).completed = 0)) = some true := by decide +kernel
  obtain ⟨σ, h1, h2⟩ := serExec_run (by
    intro k hk
    rcases List.mem_cons.1 hk with rfl | hk
    · exact anyPick_legal _
    · rw [List.mem_singleton.1 hk]
      exact anyPick_legal _) _ hx
  exact ⟨_, twice_single, _, _, _, σ, h1, by decide +kernel, rfl, rfl, of_decide_eq_true h2⟩

/-- C41 is false for a task with one block, which fails: `run_blockwise` returns True. -/
theorem C41_false_single : ∃ p : Pipeline 1, Ex.PlainSingle p ∧ ∃ n cfg ks σ, SRun (S := Nat) p.view cfg ks σ ∧
    p.view.nodes = [n] ∧ σ.stop = true ∧ Server.result p.view σ = true ∧ Dead p.view (evs σ.out) n ∧
    ¬ Done (evs σ.out) n := by
  have hx : (sexec (S := Nat) (pipe [once]).view gridConf [tick (anyPick (blk1 0 0 1 0 1 0)) (.msg (.acquire 0) 7),
      tick (anyPick (blk1 0 0 1 0 1 0)) (.msg (.release (blk1 0 0 1 0 1 0) .failed) 7)]).map
      (fun σ => decide (σ.stop = true ∧ Server.result (pipe [once]).view σ = true ∧
        Dead (pipe [once]).view (evs σ.out) (blk1 0 0 1 0 1 0) ∧ ¬ Done (evs σ.out) (blk1 0 0 1 0 1 0))) =
      some true := by decide +kernel
  obtain ⟨σ, h, e⟩ := sexec_run (by
    intro k hk
    rcases List.mem_cons.1 hk with rfl | hk
    · exact tick_legal (anyPick_legal _) _ _
    · rw [List.mem_singleton.1 hk]
      exact tick_legal (anyPick_legal _) _ _) _ hx
  obtain ⟨e1, e2, e3, e4⟩ := of_decide_eq_true e
  exact ⟨_, once_single, _, _, _, σ, h, by decide +kernel, e1, e2, e3, e4⟩

/-! ### Pipelines -/

namespace Ex.Fail

/-- `n` blocks of one voxel, without context. -/
def line (t : Nat) (n : Int) (ups : List (Task 1)) : Task 1 := task1 t (r1 0 n) (r1 0 1) (r1 0 1) false .valid ups

/-- Blocks of one voxel that read one voxel more on both sides. -/
def wide (t : Nat) (n : Int) (ups : List (Task 1)) : Task 1 := task1 t (r1 0 n) (r1 0 3) (r1 1 2) false .valid ups

/-- One block that reads and writes voxel `k`. -/
def spot (t : Nat) (k : Int) (ups : List (Task 1)) : Task 1 :=
  task1 t (r1 k (k + 1)) (r1 0 1) (r1 0 1) false .valid ups

/-- The blocks of `line` and of `wide` that write voxel `k`. -/
def lineBlk (t : Nat) (k : Int) : Block 1 := blk1 t k (k + 1) k (k + 1) k
def wideBlk (t : Nat) (k : Int) : Block 1 := blk1 t (k - 1) (k + 2) k (k + 1) k

/-- Two stages. -/
def two0 : Task 1 := line 0 2 []
def two1 : Task 1 := line 1 2 [two0]

/-- The second stage has context, the third one reads the last block of the second one. -/
def tri0 : Task 1 := line 0 8 []
def tri1 : Task 1 := wide 1 8 [tri0]
def tri2 : Task 1 := spot 2 6 [tri1]

/-- Two tasks depend on the first one, and a fourth one, which has context, on both. -/
def dia0 : Task 1 := line 0 8 []
def dia1 : Task 1 := line 1 8 [dia0]
def dia2 : Task 1 := line 2 8 [dia0]
def dia3 : Task 1 := wide 3 8 [dia1, dia2]

/-- A fifth one that reads the last block of the fourth. -/
def dia4 : Task 1 := spot 4 6 [dia3]

/-- What has to be looked at to see that a list of tasks is plain. -/
def plainChk (t : Task 1) : Prop :=
  (t.info.Plain ∧ (t.requires ≠ [] → t.info.Symmetric)) ∧
    (t.requires ≠ [] → ∃ u ∈ t.requires, Within t.info.writes u.info.writes ∧ (u.info.fit ≠ .valid ∨ u.info.Divides))

theorem plain_of {tasks L : List (Task 1)} (h1 : ∀ t ∈ tasks, t ∈ L) (h2 : ∀ t ∈ L, ∀ u ∈ t.requires, u ∈ L)
    (h3 : ∀ s ∈ L, ∀ s' ∈ L, s.id = s'.id → s = s') (h4 : ∀ t ∈ L, plainChk t) : PlainTasks tasks :=
  plainTasks_of h1 h2 h3 (fun t ht => (h4 t ht).1.1) (fun t ht => (h4 t ht).1.2) (fun t ht => (h4 t ht).2)

theorem two0_chk : plainChk two0 :=
  ⟨⟨⟨by decide, by decide, by decide, by decide, Or.inl (by decide), by decide⟩, fun h => absurd rfl h⟩,
    fun h => absurd rfl h⟩

theorem two1_chk : plainChk two1 :=
  ⟨⟨⟨by decide, by decide, by decide, by decide, Or.inl (by decide), by decide⟩,
    fun _ => by unfold TaskInfo.Symmetric; decide⟩,
    fun _ => ⟨two0, List.mem_singleton.2 rfl, within_of (by decide), Or.inr (by unfold TaskInfo.Divides; decide)⟩⟩

theorem tri0_chk : plainChk tri0 :=
  ⟨⟨⟨by decide, by decide, by decide, by decide, Or.inl (by decide), by decide⟩, fun h => absurd rfl h⟩,
    fun h => absurd rfl h⟩

theorem tri1_chk : plainChk tri1 :=
  ⟨⟨⟨by decide, by decide, by decide, by decide, Or.inl (by decide), by decide⟩,
    fun _ => by unfold TaskInfo.Symmetric; decide⟩,
    fun _ => ⟨tri0, List.mem_singleton.2 rfl, within_of (by decide), Or.inr (by unfold TaskInfo.Divides; decide)⟩⟩

theorem tri2_chk : plainChk tri2 :=
  ⟨⟨⟨by decide, by decide, by decide, by decide, Or.inl (by decide), by decide⟩,
    fun _ => by unfold TaskInfo.Symmetric; decide⟩,
    fun _ => ⟨tri1, List.mem_singleton.2 rfl, within_of (by decide), Or.inr (by unfold TaskInfo.Divides; decide)⟩⟩

theorem dia0_chk : plainChk dia0 :=
  ⟨⟨⟨by decide, by decide, by decide, by decide, Or.inl (by decide), by decide⟩, fun h => absurd rfl h⟩,
    fun h => absurd rfl h⟩

theorem dia1_chk : plainChk dia1 :=
  ⟨⟨⟨by decide, by decide, by decide, by decide, Or.inl (by decide), by decide⟩,
    fun _ => by unfold TaskInfo.Symmetric; decide⟩,
    fun _ => ⟨dia0, List.mem_singleton.2 rfl, within_of (by decide), Or.inr (by unfold TaskInfo.Divides; decide)⟩⟩

theorem dia2_chk : plainChk dia2 :=
  ⟨⟨⟨by decide, by decide, by decide, by decide, Or.inl (by decide), by decide⟩,
    fun _ => by unfold TaskInfo.Symmetric; decide⟩,
    fun _ => ⟨dia0, List.mem_singleton.2 rfl, within_of (by decide), Or.inr (by unfold TaskInfo.Divides; decide)⟩⟩

theorem dia3_chk : plainChk dia3 :=
  ⟨⟨⟨by decide, by decide, by decide, by decide, Or.inl (by decide), by decide⟩,
    fun _ => by unfold TaskInfo.Symmetric; decide⟩,
    fun _ => ⟨dia1, List.mem_cons_self, within_of (by decide), Or.inr (by unfold TaskInfo.Divides; decide)⟩⟩

theorem dia4_chk : plainChk dia4 :=
  ⟨⟨⟨by decide, by decide, by decide, by decide, Or.inl (by decide), by decide⟩,
    fun _ => by unfold TaskInfo.Symmetric; decide⟩,
    fun _ => ⟨dia3, List.mem_singleton.2 rfl, within_of (by decide), Or.inr (by unfold TaskInfo.Divides; decide)⟩⟩

/-- What `run_blockwise([two1])` makes of it. -/
def twoPipe : Pipeline 1 := pipe [two1, two0]

theorem two_pipe : PlainPipe twoPipe [1, 0] := by
  refine ⟨[two1], [two1, two0], plain_of (L := [two0, two1]) (by simp)
    (by simp [two0, two1, line, task1, TTree.requires])
    (by simp [two0, two1, line, task1, TTree.id]) ?_, ⟨by rfl, by rfl, by rfl⟩, rfl⟩
  intro t ht
  simp only [List.mem_cons, List.not_mem_nil, or_false] at ht
  rcases ht with rfl | rfl
  · exact two0_chk
  · exact two1_chk

/-- What `run_blockwise([tri2])` makes of it. -/
def triPipe : Pipeline 1 := pipe [tri2, tri1, tri0]

theorem tri_pipe : PlainPipe triPipe [2, 1, 0] := by
  refine ⟨[tri2], [tri2, tri1, tri0], plain_of (L := [tri0, tri1, tri2]) (by simp)
    (by simp [tri0, tri1, tri2, line, wide, spot, task1, TTree.requires])
    (by simp [tri0, tri1, tri2, line, wide, spot, task1, TTree.id]) ?_, ⟨by rfl, by rfl, by rfl⟩, rfl⟩
  intro t ht
  simp only [List.mem_cons, List.not_mem_nil, or_false] at ht
  rcases ht with rfl | rfl | rfl
  · exact tri0_chk
  · exact tri1_chk
  · exact tri2_chk

/-- What `run_blockwise([dia3])` makes of it. -/
def diaPipe : Pipeline 1 := pipe [dia3, dia1, dia2, dia0]

theorem dia_pipe : PlainPipe diaPipe [3, 1, 2, 0] := by
  refine ⟨[dia3], [dia3, dia1, dia2, dia0], plain_of (L := [dia0, dia1, dia2, dia3]) (by simp)
    (by simp [dia0, dia1, dia2, dia3, line, wide, task1, TTree.requires])
    (by simp [dia0, dia1, dia2, dia3, line, wide, task1, TTree.id]) ?_, ⟨by rfl, by rfl, by rfl⟩, rfl⟩
  intro t ht
  simp only [List.mem_cons, List.not_mem_nil, or_false] at ht
  rcases ht with rfl | rfl | rfl | rfl
  · exact dia0_chk
  · exact dia1_chk
  · exact dia2_chk
  · exact dia3_chk

/-- What `run_blockwise([dia4])` makes of it. -/
def tailPipe : Pipeline 1 := pipe [dia4, dia3, dia1, dia2, dia0]

theorem tail_pipe : PlainPipe tailPipe [4, 3, 1, 2, 0] := by
  refine ⟨[dia4], [dia4, dia3, dia1, dia2, dia0], plain_of (L := [dia0, dia1, dia2, dia3, dia4]) (by simp)
    (by simp [dia0, dia1, dia2, dia3, dia4, line, wide, spot, task1, TTree.requires])
    (by simp [dia0, dia1, dia2, dia3, dia4, line, wide, spot, task1, TTree.id]) ?_, ⟨by rfl, by rfl, by rfl⟩, rfl⟩
  intro t ht
  simp only [List.mem_cons, List.not_mem_nil, or_false] at ht
  rcases ht with rfl | rfl | rfl | rfl | rfl
  · exact dia0_chk
  · exact dia1_chk
  · exact dia2_chk
  · exact dia3_chk
  · exact dia4_chk

/-- What the server of `triPipe` receives: a request, a block that completed, a block that failed. -/
inductive TriMsg where
  | ask (t s : Nat)
  | ok (b : Block 1) (s : Nat)
  | bad (b : Block 1) (s : Nat)

def TriMsg.recv : TriMsg → Server.Recv (Block 1) Nat Nat
  | .ask t s => .msg (.acquire t) s
  | .ok b s => .msg (.release b .success) s
  | .bad b s => .msg (.release b .failed) s

noncomputable def pipePick (p : Pipeline 1) : Nat → Finset (Block 1) → Block 1 := firstPick p.view.nodes (lineBlk 0 0)

theorem pipePick_legal (p : Pipeline 1) : LegalPick (pipePick p) := firstPick_legal _ _

/-- The blocks of the first stage are done except two, which fail; of the second stage one block is done, and one was
done in an earlier run. -/
noncomputable def triServe : List (Server.Tick (Block 1) Nat Nat) :=
  [TriMsg.ask 0 10, .ask 0 11, .ask 0 12, .ask 0 13, .ask 0 14, .ask 0 15, .ask 0 16, .ask 0 17, .ok (lineBlk 0 0) 10,
    .ok (lineBlk 0 1) 11, .ok (lineBlk 0 2) 12, .ok (lineBlk 0 5) 15, .ok (lineBlk 0 6) 16, .bad (lineBlk 0 3) 13,
    .ask 1 20, .ok (wideBlk 1 1) 20, .ok (lineBlk 0 7) 17, .bad (lineBlk 0 4) 14].map
      (fun m => tick (pipePick triPipe) m.recv) ++ [tick (pipePick triPipe) (TriMsg.ask 1 20).recv [wideBlk 1 6]]

theorem triServe_legal : ∀ k ∈ triServe, LegalPick k.pick ∧ ∀ n, LegalPick (k.pickLost n) := by
  intro k hk
  rcases List.mem_append.1 hk with hk | hk
  · obtain ⟨r, _, he⟩ := List.mem_map.1 hk
    rw [← he]
    exact tick_legal (pipePick_legal _) _ _
  · rw [List.mem_singleton.1 hk]
    exact tick_legal (pipePick_legal _) _ _

end Ex.Fail

theorem serTick_legal {N T : Type} [DecidableEq N] {pick : Nat → Finset N → N} (h : LegalPick pick) (acc fail : List N) :
    LegalPick (serTick (T := T) pick acc fail).pick := h

theorem serTick_returns {N T : Type} [DecidableEq N] (pick : Nat → Finset N → N) (fail : List N) :
    SerTick.Returns (serTick (T := T) pick [] fail) ∧ SerTick.NoSkips (serTick (T := T) pick [] fail) := by
  refine ⟨fun n => ?_, fun t i n => by simp [serTick]⟩
  simp only [serTick]
  split <;> simp

theorem serTick_succeeds {N T : Type} [DecidableEq N] (pick : Nat → Finset N → N) (acc : List N) :
    SerTick.Succeeds (serTick (T := T) pick acc []) := fun n => by simp [serTick]

/-- C38 is false for a plain pipeline of two stages: both blocks of the first stage were done in an earlier run and
are skipped, and `run_blockwise` returns, although both blocks of the second stage are ready. -/
theorem C38_false_plain : ∃ (p : Pipeline 1) (served : List Nat), Ex.PlainPipe p served ∧ ∃ ks σ,
    SerRun p.view served ks σ ∧ (∀ k ∈ ks, SerTick.Succeeds k) ∧ σ.ended = true ∧
    (∃ n ∈ p.view.nodes, p.view.task n = 1) ∧ (∀ n ∈ p.view.nodes, p.view.task n = 1 →
      Ready p.view (serEvs σ.out) n) ∧ (σ.sched.states 1).isDone = false ∧ ∀ t, .taskDone t ∉ σ.out := by
  have hx : (serExec twoPipe.view [1, 0] [serTick (pipePick twoPipe) [lineBlk 0 0, lineBlk 0 1] []]).map
      (fun σ => decide (σ.ended = true ∧
        (∀ n ∈ twoPipe.view.nodes, twoPipe.view.task n = 1 → Ready twoPipe.view (serEvs σ.out) n) ∧
        (σ.sched.states 1).isDone = false ∧ σ.out.all (fun o => match o with | .taskDone _ => false | _ => true) = true)) =
      some true := by
    decide +kernel
  obtain ⟨σ, h1, h2⟩ := serExec_run (by
    intro k hk
    rw [List.mem_singleton.1 hk]
    exact serTick_legal (pipePick_legal _) _ _) _ hx
  obtain ⟨e1, e2, e3, e4⟩ := of_decide_eq_true h2
  refine ⟨_, _, two_pipe, _, σ, h1, ?_, e1, ⟨lineBlk 1 0, by decide +kernel, by decide +kernel⟩, e2, e3, ?_⟩
  · intro k hk
    rw [List.mem_singleton.1 hk]
    exact serTick_succeeds _ _
  · intro t ht
    have := List.all_eq_true.1 e4 _ ht
    cases this

/-- C53 is false for a plain pipeline of three stages: nobody has a block, a block of the third stage is ready, the
server has not stopped, and it has never started a worker for the third stage. -/
theorem C53_false_plain : ∃ (p : Pipeline 1) (served : List Nat), Ex.PlainPipe p served ∧ ∃ cfg ks σ n,
    cfg.served = served ∧ SRun (S := Nat) p.view cfg ks σ ∧ (∀ n, holder σ.out n = none) ∧
    Ready p.view (evs σ.out) n ∧ p.view.task n = 2 ∧ σ.stop = false ∧
    ∀ m, Ready p.view (evs σ.out) m → ¬ Recruited σ (p.view.task m) := by
  have hx : (sexec triPipe.view ⟨[2, 1, 0], fun _ => some 1⟩ triServe).map (fun σ => decide (
      (∀ n ∈ triPipe.view.nodes, holder σ.out n = none) ∧ (∃ n ∈ triPipe.view.nodes,
        Ready triPipe.view (evs σ.out) n ∧ triPipe.view.task n = 2) ∧ σ.stop = false ∧ 2 ∉ σ.started ∧
      ∀ n ∈ triPipe.view.nodes, Ready triPipe.view (evs σ.out) n → triPipe.view.task n = 2)) = some true := by
    decide +kernel
  obtain ⟨σ, h, e⟩ := sexec_run triServe_legal _ hx
  obtain ⟨e1, ⟨n, e2, e3, e4⟩, e5, e6, e7⟩ := of_decide_eq_true e
  have hok := tri_pipe.ok
  refine ⟨_, _, tri_pipe, _, _, σ, n, rfl, h, ?_, e3, e4, e5, fun m hm hc => e6 ?_⟩
  · intro n
    by_contra hc
    exact hc (e1 n ((h.inv hok).toSCore.mem hok hc))
  · rw [e7 m hm.1 hm] at hc
    exact (h.recruited hok _).2 hc

/-- C56 is false for a plain pipeline: no block was done before, two blocks fail for good, and `run_blockwise` returns
although a block is ready. -/
theorem C56_false_early_plain : ∃ (p : Pipeline 1) (served : List Nat), Ex.PlainPipe p served ∧ ∃ ks σ n,
    SerRun p.view served ks σ ∧ (∀ k ∈ ks, SerTick.Returns k ∧ SerTick.NoSkips k) ∧ σ.ended = true ∧
    Ready p.view (serEvs σ.out) n := by
  have hx : (serExec diaPipe.view [3, 1, 2, 0]
      (List.replicate 26 (serTick (pipePick diaPipe) [] [lineBlk 1 3, lineBlk 2 3]))).map
      (fun σ => decide (σ.ended = true ∧ Ready diaPipe.view (serEvs σ.out) (wideBlk 3 6))) = some true := by
    decide +kernel
  obtain ⟨σ, h1, h2⟩ := serExec_run (by
    intro k hk
    rw [List.eq_of_mem_replicate hk]
    exact serTick_legal (pipePick_legal _) _ _) _ hx
  obtain ⟨e1, e2⟩ := of_decide_eq_true h2
  refine ⟨_, _, dia_pipe, _, σ, _, h1, ?_, e1, e2⟩
  intro k hk
  rw [List.eq_of_mem_replicate hk]
  exact serTick_returns _ _

/-- C56 is false for a plain pipeline: with a further stage the loop goes on after the fourth task has been taken to be
done, and the next block of the fourth task makes it raise `KeyError`. -/
theorem C56_false_raises_plain : ∃ (p : Pipeline 1) (served : List Nat), Ex.PlainPipe p served ∧ ∃ ks σ k,
    SerRun p.view served ks σ ∧ (∀ k' ∈ ks, SerTick.Returns k' ∧ SerTick.NoSkips k') ∧ LegalPick k.pick ∧
    SerTick.Succeeds k ∧ SerTick.NoSkips k ∧ σ.ended = false ∧ σ.pass p.view served k = .error .keyError := by
  have hx : (serExec tailPipe.view [4, 3, 1, 2, 0]
      (List.replicate 26 (serTick (pipePick tailPipe) [] [lineBlk 1 3, lineBlk 2 3]))).map
      (fun σ => (σ.ended, (σ.pass tailPipe.view [4, 3, 1, 2, 0] (serTick (pipePick tailPipe))).map (fun _ => ()))) =
      some (false, .error .keyError) := by decide +kernel
  obtain ⟨σ, h1, h2, h3⟩ := serExec_raises (by
    intro k hk
    rw [List.eq_of_mem_replicate hk]
    exact serTick_legal (pipePick_legal _) _ _) hx
  refine ⟨_, _, tail_pipe, _, σ, _, h1, ?_, serTick_legal (pipePick_legal _) _ _, serTick_succeeds _ _,
    (serTick_returns _ _).2, h2, h3⟩
  intro k hk
  rw [List.eq_of_mem_replicate hk]
  exact serTick_returns _ _

end Verif
