import Verif.Proofs.Thin
import Verif.Props.Serial
import Verif.Props.ServerEnd
import Verif.Props.ServerFair
import Verif.Props.ClusterFair

/-! # C106: thin pipelines end when they should

The claims about ends of runs (C22, C34, C35, C53, C56, C70, C71, C87) fail because blocks with two failed
ancestors may be counted twice.  Whether that can happen is visible in the parameters of the tasks: if every task
is thin, no block waits for more than two blocks, and all these claims hold whatever fails. -/

namespace Verif.Props

open Verif Spec Pipeline

variable {d : Nat} {tasks r : List (Task d)} {p : Pipeline d}

/-- C106: in a plain pipeline of thin tasks no block has more than two direct upstream blocks. -/
theorem C106_two (h : PlainTasks tasks) (hth : ThinTasks tasks) (hb : Builds tasks r p) :
    ∀ b ∈ p.view.nodes, (p.view.up b).length ≤ 2 := by
  intro b hbm
  have hbt := (built_of_init hb.init (hb.unique h)).1
  have hwf := hb.wf h
  refine Thin.length_le_two ((hb.ok h).up_nodup b hbm) ?_
  obtain ⟨y, hy⟩ := hb.of_nodes h hbm
  obtain ⟨gy, o, hgy, ho, rfl⟩ := grid_blockOf hwf hy
  obtain ⟨t, t1, t2, _, t4⟩ := graphs_init hb.init hgy
  have ht : Required tasks t := (flatten_required h.unique hb.flat t).1 t1
  obtain ⟨gw, gr, _⟩ := hwf y gy hgy
  have hcy : gy.CtxNonneg := (plain_graph t4 (h.plain t ht)).2.2
  obtain ⟨e1, e2, e3, _, _, _⟩ := taskGraph_init t4
  have hctx : ∀ i, t.info.NoContext i → gy.cl i = 0 ∧ gy.cu i = 0 := by
    rintro i ⟨c1, c2⟩
    simp only [BGraph.cl, BGraph.cu, e1, e2, c1, c2]
    omega
  obtain ⟨g, us, l, u1, u2, u3, u4⟩ := mem_upstream hbt hwf hy
  rw [hgy] at u1; cases u1
  obtain ⟨us', v1, _, v3⟩ := gy.upstream_spec gw gr ho
  rw [u2] at v1; cases v1
  have hl : p.view.up (gy.blk o) = l := okOr_ok u3
  rw [hl]
  -- what is upstream, in terms of tasks and places
  have inner : t.info.Solo → us = [] := by
    intro hs
    rw [List.eq_nil_iff_forall_not_mem]
    intro a ha
    obtain ⟨q, hq, hd, _⟩ := (v3 a).1 ha
    rcases hs with hs | hs
    · have := hd.1
      rw [e3, hs] at this
      cases this
    · exact gy.no_dep gw hq ho hd (fun i => hctx i (hs i))
  have outer : ∀ a, (∃ x ∈ p.tg.ups y, ∃ gx, p.graphs x = some gx ∧ a ∈ gx.subgraphBlocks (gy.blk o).readRoi false) →
      ∃ s gx q, s ∈ t.requires ∧ taskGraph s = .ok gx ∧ gx.Wf ∧ gx.Grid q ∧ a = gx.blk q ∧
        Overlap (gx.blk q).writeRoi (gy.blk o).readRoi := by
    rintro a ⟨x, hx, gx, hgx, ha⟩
    obtain ⟨s, t', s1, t1', hst, _, t2', s4, _⟩ := link_tasks hb.init (flatten_plain h hb.flat) hx hgx hgy
    have : t' = t := hb.unique h t' t t1' t1 (t2'.trans t2.symm)
    subst this
    have hps := plain_graph s4 (h.plain s ((flatten_required h.unique hb.flat s).1 s1))
    have hrn : ∀ i, 0 ≤ (gy.blk o).readRoi.shape.get i := by
      intro i
      have w2 := (gy.blk_write gw o (gy.grid_admissible ho)).2 i
      have r2 := (gy.blk_read gw hcy o (gy.grid_admissible ho)).2 i
      have hc := hcy i
      have hwp := gw.wpos i
      have hg := (ho i).2.1
      have : 0 ≤ (gy.blk o).writeRoi.shape.get i := by
        rw [w2]
        split
        · next hf =>
          have : gy.u i = gy.t i := gy.u_other (by rw [hf]; decide) i
          omega
        · omega
      omega
    obtain ⟨q, hq, hqe, hov⟩ := (gx.up_query_iff (hwf x gx hgx).1 hps.1 hps.2.1 _ hrn a).1 ha
    exact ⟨s, gx, q, hst, s4, (hwf x gx hgx).1, hq, hqe, hqe ▸ hov⟩
  have unique_graph : ∀ {s : Task d} {g1 g2 : BGraph d}, taskGraph s = .ok g1 → taskGraph s = .ok g2 → g1 = g2 := by
    intro s g1 g2 a1 a2
    rw [a1] at a2
    exact Except.ok.inj a2
  rcases hth t ht with ⟨hr, hs⟩ | ⟨s, hr, hs, hn⟩ | ⟨s, s', hr, hs, hn, hn'⟩
  · have hus : ∀ a ∈ l, a ∈ us := by
      intro a ha
      rcases (u4 a).1 ha with h1 | h1
      · exact h1
      · obtain ⟨s, _, _, h2, _⟩ := outer a h1
        rw [hr] at h2; cases h2
    rcases hs with hs | ⟨j, hj⟩
    · intro a ha
      have h1 := hus a ha
      rw [inner (Or.inl hs)] at h1
      cases h1
    · intro a ha b hb c hc
      obtain ⟨a', a1, a2, rfl⟩ := (v3 a).1 (hus a ha)
      obtain ⟨b', b1, b2, rfl⟩ := (v3 b).1 (hus b hb)
      obtain ⟨c', c1, c2, rfl⟩ := (v3 c).1 (hus c hc)
      rcases gy.dep_two gw (fun i hi => hctx i (hj i hi)) ho a1 b1 c1 a2 b2 c2 with e | e | e
      · exact Or.inl (by rw [e])
      · exact Or.inr (Or.inl (by rw [e]))
      · exact Or.inr (Or.inr (by rw [e]))
  · have out : ∀ a ∈ l, ∃ gx q, taskGraph s = .ok gx ∧ gx.Wf ∧ gx.Grid q ∧ a = gx.blk q ∧
        Overlap (gx.blk q).writeRoi (gy.blk o).readRoi := by
      intro a ha
      rcases (u4 a).1 ha with h1 | h1
      · rw [inner hs] at h1; cases h1
      · obtain ⟨s1, gx, q, h2, h3⟩ := outer a h1
        rw [hr, List.mem_singleton] at h2
        subst h2
        exact ⟨gx, q, h3⟩
    intro a ha b hb c hc
    obtain ⟨gx, a', f1, fw, a1, rfl, a2⟩ := out a ha
    obtain ⟨gx', b', f2, _, b1, rfl, b2⟩ := out b hb
    obtain ⟨gx'', c', f3, _, c1, rfl, c2⟩ := out c hc
    obtain rfl := unique_graph f1 f2
    obtain rfl := unique_graph f1 f3
    rcases narrow_two f1 t4 fw gw hcy a1 b1 c1 ho a2 b2 c2 hn with e | e | e
    · exact Or.inl (by rw [e])
    · exact Or.inr (Or.inl (by rw [e]))
    · exact Or.inr (Or.inr (by rw [e]))
  · have out : ∀ a ∈ l, ∃ s1 gx q, (s1 = s ∨ s1 = s') ∧ taskGraph s1 = .ok gx ∧ gx.Wf ∧ gx.Grid q ∧ a = gx.blk q ∧
        Overlap (gx.blk q).writeRoi (gy.blk o).readRoi := by
      intro a ha
      rcases (u4 a).1 ha with h1 | h1
      · rw [inner hs] at h1; cases h1
      · obtain ⟨s1, gx, q, h2, h3⟩ := outer a h1
        rw [hr] at h2
        exact ⟨s1, gx, q, by simpa using h2, h3⟩
    have same : ∀ {s1 : Task d} {g1 g2 : BGraph d} {q1 q2 : Coord d}, (s1 = s ∨ s1 = s') → taskGraph s1 = .ok g1 →
        taskGraph s1 = .ok g2 → g1.Wf → g1.Grid q1 → g2.Grid q2 →
        Overlap (g1.blk q1).writeRoi (gy.blk o).readRoi → Overlap (g2.blk q2).writeRoi (gy.blk o).readRoi →
        g1.blk q1 = g2.blk q2 := by
      intro s1 g1 g2 q1 q2 hs1 k1 k2 kw m1 m2 o1 o2
      obtain rfl := unique_graph k1 k2
      have : q1 = q2 := by
        apply Vec.ext_get
        intro i
        rcases hs1 with rfl | rfl
        · exact refines_unique k1 t4 kw gw hcy m1 m2 ho o1 o2 (hn i)
        · exact refines_unique k1 t4 kw gw hcy m1 m2 ho o1 o2 (hn' i)
      rw [this]
    intro a ha b hb c hc
    obtain ⟨sa, ga, qa, a0, a1, a2, a3, rfl, a4⟩ := out a ha
    obtain ⟨sb, gb, qb, b0, b1, b2, b3, rfl, b4⟩ := out b hb
    obtain ⟨sc, gc, qc, c0, c1, c2, c3, rfl, c4⟩ := out c hc
    have : sa = sb ∨ sa = sc ∨ sb = sc := by
      rcases a0 with rfl | rfl <;> rcases b0 with rfl | rfl <;> rcases c0 with rfl | rfl <;> simp
    rcases this with rfl | rfl | rfl
    · exact Or.inl (same a0 a1 b1 a2 a3 b3 a4 b4)
    · exact Or.inr (Or.inl (same a0 a1 c1 a2 a3 c3 a4 c4))
    · exact Or.inr (Or.inr (same b0 b1 c1 b2 b3 c3 b4 c4))

variable (h : PlainTasks tasks) (hth : ThinTasks tasks) (hb : Builds tasks r p)

include h hth hb

/-- C106, counters: whatever happens, in every state of the scheduler the orphan count of a task is the number of its
blocks downstream of a permanent failure, and a task is called done exactly when nothing of it is left to do. -/
theorem C106_counts {tr : List (Ev (Block d))} {st : Sched (Block d) Nat (Nat × Int)} (hrun : Run p.view tr st)
    (t : Nat) : (st.states t).orphaned = cnt p.view t (Orphan p.view tr) ∧
      ((st.states t).isDone = true ↔ TaskFinished p.view tr t) :=
  ⟨C22_orphan_count_partial (hb.ok h) hrun (exact_of_two (C106_two h hth hb)) t,
    C22_is_done_partial (hb.ok h) hrun (exact_of_two (C106_two h hth hb)) t⟩

/-- C106, without workers: if all process functions return, the loop ends without an exception after finitely many
passes, whatever blocks fail. -/
theorem C106_serial (tick : Nat → SerTick (Block d) Nat) (hpick : ∀ i, LegalPick (tick i).pick)
    (hk : ∀ i, SerTick.Returns (tick i)) :
    ∃ m σ, SerRun p.view (r.map TTree.id) ((List.range m).map tick) σ ∧ σ.ended = true :=
  C56_returns_partial (hb.ok h) (hb.served h) (C106_two h hth hb) tick hpick hk

/-- C106, without workers: and at its end every block has completed, has failed for good or is downstream of a block
that failed for good, if no block was skipped. -/
theorem C106_serial_finished {ks : List (SerTick (Block d) Nat)} {σ : Serial (Block d) Nat (Nat × Int)}
    (hrun : SerRun p.view (r.map TTree.id) ks σ) (hk : ∀ k ∈ ks, SerTick.NoSkips k) (hend : σ.ended = true) :
    ∀ y b, p.BlockOf y b → .release b .success ∈ σ.out ∨ ∃ f, (f = b ∨ Anc p.view f b) ∧
      p.view.maxRetries (p.view.task f) < (serEvs σ.out).count (.bad f) ∧ .release f .failed ∈ σ.out := by
  intro y b hy
  rcases (C56_finished_partial (hb.ok h) (hb.served h) hrun (exact_of_two (C106_two h hth hb)) hk hend).1 b
    (hb.mem_nodes h hy) with h1 | h1 | ⟨f, h1, h2⟩
  · exact Or.inl h1
  · exact Or.inr ⟨b, Or.inl rfl, h1⟩
  · exact Or.inr ⟨f, Or.inr h1, h2⟩

section server

variable {S : Type} [DecidableEq S] {cfg : SConf Nat} {ks : List (Server.Tick (Block d) Nat S)}
  {σ : Server (Block d) Nat (Nat × Int) S} (hrun : SRun p.view cfg ks σ)

include hrun

/-- C106, with workers: the server stops only when nothing is left to do and nobody has a block, and calls a task
finished only when nothing of it is left. -/
theorem C106_stop :
    (σ.stop = true → (∀ n ∈ p.view.nodes, Done (evs σ.out) n ∨ Dead p.view (evs σ.out) n ∨
      Orphan p.view (evs σ.out) n) ∧ ∀ n, holder σ.out n = none) ∧
    ∀ t, .taskDone t ∈ σ.out → TaskFinished p.view (evs σ.out) t :=
  C34_stop_means_finished_partial (hb.ok h) hrun (exact_of_two (C106_two h hth hb))

/-- C106, with workers: a client is told to stop only when no block of its task is left that nobody has. -/
theorem C106_shutdown {pre post : List (Out (Block d) Nat S)} {s : S} {t : Nat}
    (he : σ.out = pre ++ .shutdown s t :: post) : ∀ n ∈ p.view.nodes, p.view.task n = t →
      Done (evs pre) n ∨ Dead p.view (evs pre) n ∨ Orphan p.view (evs pre) n ∨ holder pre n ≠ none :=
  (C35_shutdown_partial (hb.ok h) hrun he).2 (exact_of_two (C106_two h hth hb))

/-- C106, with workers: when nobody has a block and one can be processed, workers have been asked for that can process
one. -/
theorem C106_workers (hn : ∀ n, holder σ.out n = none) {b : Block d} (hr : Ready p.view (evs σ.out) b) :
    ∃ a, Ready p.view (evs σ.out) a ∧ Recruited σ a.taskId := by
  rcases C53_pipeline_partial hb.init (hb.unique h) (hb.wf h) (hb.rootLevels h) (hb.linked h) (hb.fed h) hrun
    (exact_of_two (C106_two h hth hb)) hn hr with h1 | h1
  · exact ⟨b, hr, h1⟩
  · exact h1

/-- C106, with workers: from every state, whatever has failed, the server can be brought to its end. -/
theorem C106_finish (hcfg : cfg.served = r.map TTree.id) (s : S) :
    ∃ ks' σ', SSteps p.view cfg σ ks' σ' ∧ σ'.stop = true ∧
      ∀ n ∈ p.view.nodes, Done (evs σ'.out) n ∨ Dead p.view (evs σ.out) n ∨ Orphan p.view (evs σ.out) n := by
  have : Nonempty (Block d) := ⟨Block.new ⟨Vec.const d 0, Vec.const d 0⟩ ⟨Vec.const d 0, Vec.const d 0⟩
    ⟨Vec.const d 0, Vec.const d 0⟩ 0⟩
  exact C70_can_finish_partial (hb.ok h) (fun n hn => hcfg ▸ hb.served h _ ((hb.ok h).task_mem n hn)) s hrun
    (safe_of_two (C106_two h hth hb))

/-- C106, with workers: `run_blockwise` returns `True` exactly if nothing is left to do. -/
theorem C106_result : Server.result p.view σ = true ↔
    ∀ n ∈ p.view.nodes, Done (evs σ.out) n ∨ Dead p.view (evs σ.out) n ∨ Orphan p.view (evs σ.out) n :=
  C41_true_partial (hb.ok h) hrun (exact_of_two (C106_two h hth hb))

end server

omit hth in
/-- Direct upstream blocks of another task belong to a task without upstream tasks. -/
theorem two_stages (h2 : ∀ t, Required tasks t → ∀ s ∈ t.requires, s.requires = []) :
    ∀ n ∈ p.view.nodes, ∀ u ∈ p.view.up n, p.view.task u = p.view.task n ∨ RootTask p.view (p.view.task u) := by
  intro n hn u hu
  rcases hb.up_task h hn hu with h1 | ⟨t, h1, _, s, h3, h4⟩
  · exact Or.inl h1
  · obtain ⟨t0, ht0, hn0⟩ := id h1
    exact Or.inr (h4 ▸ hb.rootTask h ⟨t0, ht0, hn0.tail h3⟩ (h2 t h1 s h3))

/-- C106, with processes: a thin pipeline of at most two stages comes to an end in every fair execution, although
clients may fail, be killed and lose their connection and blocks may fail; then nothing is left to do and nobody has
a block. -/
theorem C106_cluster {S : Type} [DecidableEq S] {c : SysConf Nat} {x : Nat → Cluster (Block d) Nat (Nat × Int) S}
    {e : Nat → ClEv (Block d) Nat S} (hcfg : c.cfg.served = r.map TTree.id)
    (h2 : ∀ t, Required tasks t → ∀ s ∈ t.requires, s.requires = []) (hF : ClForever p.view c x e)
    (hf : ClFair p.view x e) :
    ∃ i, (x i).sys.srv.stop = true ∧ (∀ n ∈ p.view.nodes, Done (evs (x i).sys.srv.out) n ∨
      Dead p.view (evs (x i).sys.srv.out) n ∨ Orphan p.view (evs (x i).sys.srv.out) n) ∧
      ∀ n, holder (x i).sys.srv.out n = none :=
  C87_two_stages_partial (hb.ok h) (two_stages h hb h2)
    (fun n hn => hcfg ▸ hb.served h _ ((hb.ok h).task_mem n hn)) hF hf (fun _ => exact_of_two (C106_two h hth hb))

end Verif.Props

namespace Verif

open Spec Pipeline Props

/-! ### Examples -/

theorem thinTasks_of {d : Nat} {tasks L : List (Task d)} (h1 : ∀ t ∈ tasks, t ∈ L)
    (h2 : ∀ t ∈ L, ∀ u ∈ t.requires, u ∈ L) (h3 : ∀ t ∈ L, ThinTask t) : ThinTasks tasks :=
  fun t ht => h3 t (required_mem h1 h2 ht)

namespace Ex.Thin

/-- Five by three blocks of one voxel that read their neighbours in the first dimension. -/
def strip : Task 2 := .node 0 ⟨r2 0 7 0 3, r2 0 3 0 1, r2 1 2 0 1, true, .valid, 1⟩ []

/-- Writes `[0,8)` in blocks of 2. -/
def low : Task 1 := task1 0 (r1 0 8) (r1 0 2) (r1 0 2) false .valid []
/-- Writes `[1,7)` in blocks of 1 with context 1. -/
def high : Task 1 := task1 1 (r1 0 8) (r1 0 3) (r1 1 2) false .valid [low]
/-- Writes `[2,6)` in blocks of 2 with context 1: reads four voxels at odd places. -/
def wide : Task 1 := task1 1 (r1 1 7) (r1 0 4) (r1 1 3) false .valid [low]

/-- A task, two tasks that read it, and a task that reads both. -/
def left : Task 1 := task1 1 (r1 0 8) (r1 0 1) (r1 0 1) true .valid [low]
def right : Task 1 := task1 2 (r1 0 8) (r1 0 2) (r1 0 2) false .valid [low]
def join : Task 1 := task1 3 (r1 0 8) (r1 0 1) (r1 0 1) false .valid [left, right]

theorem strip_plain : PlainTasks [strip] := by
  refine plainTasks_of (L := [strip]) (by simp) (by simp [strip, TTree.requires]) (by simp) ?_ ?_ ?_
  · intro t ht
    rw [List.mem_singleton.1 ht]
    exact ⟨by decide, by decide, by decide, by decide, Or.inl (by decide), by decide⟩
  · intro t ht hr
    rw [List.mem_singleton.1 ht] at hr
    exact absurd rfl hr
  · intro t ht hr
    rw [List.mem_singleton.1 ht] at hr
    exact absurd rfl hr

theorem strip_thin : ThinTasks [strip] := by
  refine thinTasks_of (L := [strip]) (by simp) (by simp [strip, TTree.requires]) ?_
  intro t ht
  rw [List.mem_singleton.1 ht]
  exact Or.inl ⟨rfl, Or.inr ⟨0, by decide⟩⟩

theorem pair_plain {t : Task 1} (hr : t.requires = [low]) (hid : t.id = 1) (hp : t.info.Plain)
    (hs : t.info.Symmetric) (hw : Within t.info.writes low.info.writes) : PlainTasks [t] := by
  refine plainTasks_of (L := [low, t]) (by simp) ?_ ?_ ?_ ?_ ?_
  · intro s hs u hu
    simp only [List.mem_cons, List.not_mem_nil, or_false] at hs
    rcases hs with rfl | rfl
    · cases hu
    · rw [hr] at hu
      simp [List.mem_singleton.1 hu]
  · intro s hs s' hs' he
    simp only [List.mem_cons, List.not_mem_nil, or_false] at hs hs'
    rcases hs with rfl | rfl <;> rcases hs' with rfl | rfl <;> first | rfl | (rw [hid] at he; cases he)
  · intro s hs
    simp only [List.mem_cons, List.not_mem_nil, or_false] at hs
    rcases hs with rfl | rfl
    · exact ⟨by decide, by decide, by decide, by decide, Or.inl (by decide), by decide⟩
    · exact hp
  · intro s hs' hne
    simp only [List.mem_cons, List.not_mem_nil, or_false] at hs'
    rcases hs' with rfl | rfl
    · exact absurd rfl hne
    · exact hs
  · intro s hs' hne
    simp only [List.mem_cons, List.not_mem_nil, or_false] at hs'
    rcases hs' with rfl | rfl
    · exact absurd rfl hne
    · exact ⟨low, by rw [hr]; exact List.mem_singleton.2 rfl, hw, Or.inr (by unfold TaskInfo.Divides; decide)⟩

theorem high_plain : PlainTasks [high] :=
  pair_plain rfl rfl ⟨by decide, by decide, by decide, by decide, Or.inl (by decide), by decide⟩
    (by unfold TaskInfo.Symmetric; decide) (within_of (by decide))

theorem wide_plain : PlainTasks [wide] :=
  pair_plain rfl rfl ⟨by decide, by decide, by decide, by decide, Or.inl (by decide), by decide⟩
    (by unfold TaskInfo.Symmetric; decide) (within_of (by decide))

theorem high_thin : ThinTasks [high] := by
  refine thinTasks_of (L := [low, high]) (by simp) (by simp [low, high, task1, TTree.requires]) ?_
  intro t ht
  simp only [List.mem_cons, List.not_mem_nil, or_false] at ht
  rcases ht with rfl | rfl
  · exact Or.inl ⟨rfl, Or.inl rfl⟩
  · exact Or.inr (Or.inl ⟨low, rfl, Or.inl rfl, 0, by decide, by decide⟩)

theorem join_plain : PlainTasks [join] := by
  refine plainTasks_of (L := [low, left, right, join]) (by simp)
    (by simp [low, left, right, join, task1, TTree.requires])
    (by simp [low, left, right, join, task1, TTree.id]) ?_ ?_ ?_
  · intro t ht
    simp only [List.mem_cons, List.not_mem_nil, or_false] at ht
    rcases ht with rfl | rfl | rfl | rfl <;>
      exact ⟨by decide, by decide, by decide, by decide, Or.inl (by decide), by decide⟩
  · intro t ht hr
    simp only [List.mem_cons, List.not_mem_nil, or_false] at ht
    rcases ht with rfl | rfl | rfl | rfl <;> (unfold TaskInfo.Symmetric; decide)
  · intro t ht hr
    simp only [List.mem_cons, List.not_mem_nil, or_false] at ht
    rcases ht with rfl | rfl | rfl | rfl
    · exact absurd rfl hr
    · exact ⟨low, List.mem_singleton.2 rfl, within_of (by decide), Or.inr (by unfold TaskInfo.Divides; decide)⟩
    · exact ⟨low, List.mem_singleton.2 rfl, within_of (by decide), Or.inr (by unfold TaskInfo.Divides; decide)⟩
    · exact ⟨left, List.mem_cons_self, within_of (by decide), Or.inr (by unfold TaskInfo.Divides; decide)⟩

theorem join_thin : ThinTasks [join] := by
  refine thinTasks_of (L := [low, left, right, join]) (by simp)
    (by simp [low, left, right, join, task1, TTree.requires]) ?_
  intro t ht
  simp only [List.mem_cons, List.not_mem_nil, or_false] at ht
  rcases ht with rfl | rfl | rfl | rfl
  · exact Or.inl ⟨rfl, Or.inl rfl⟩
  · exact Or.inr (Or.inl ⟨low, rfl, Or.inr (by decide), 0, by decide, by decide⟩)
  · exact Or.inr (Or.inl ⟨low, rfl, Or.inl rfl, 0, by decide, by decide⟩)
  · exact Or.inr (Or.inr ⟨left, right, rfl, Or.inl rfl, by decide, by decide⟩)

/-- What the constructor makes of the two-dimensional task. -/
def stripPipe : Pipeline 2 :=
  match Pipeline.init [strip] with
  | .ok p => p
  | .error _ => ⟨TaskGraph.empty, fun _ => none⟩

theorem strip_builds : Builds [strip] [strip] stripPipe := ⟨by rfl, by rfl, by rfl⟩

theorem high_builds : Builds [high] [high, low] (pipe [high, low]) := ⟨by rfl, by rfl, by rfl⟩

theorem wide_builds : Builds [wide] [wide, low] (pipe [wide, low]) := ⟨by rfl, by rfl, by rfl⟩

theorem join_builds : ∃ r, Builds [join] r (pipe r) ∧ r.length = 4 := ⟨[join, left, right, low], ⟨by rfl, by rfl, by rfl⟩, rfl⟩

end Ex.Thin

open Ex.Thin in
/-- In all three pipelines there are blocks with two direct upstream blocks, so the bound is met. -/
example : (∃ b ∈ stripPipe.view.nodes, (stripPipe.view.up b).length = 2) ∧
    (∃ b ∈ (Ex.pipe [high, low]).view.nodes, ((Ex.pipe [high, low]).view.up b).length = 2) ∧
    stripPipe.view.nodes.length = 15 := by
  refine ⟨?_, ?_, ?_⟩ <;> decide +kernel

open Ex.Thin in
/-- C106, the bound of the criterion: if a task reads two voxels more than its upstream task writes, there may be a
block with three direct upstream blocks. -/
theorem C106_sharp : ∃ (t s : Task 1) (r : List (Task 1)) (p : Pipeline 1), PlainTasks [t] ∧ Builds [t] r p ∧
    t.requires = [s] ∧ t.info.Solo ∧ (∀ i, t.info.readRoi.shape.get i = s.info.writeRoi.shape.get i + 2) ∧
    ∃ b ∈ p.view.nodes, (p.view.up b).length = 3 :=
  ⟨wide, low, _, _, wide_plain, wide_builds, rfl, Or.inl rfl, by decide, by decide +kernel⟩

open Ex.Thin in
/-- The server of the thin two-dimensional task: after any messages whatever its counters are right. -/
example {ks : List (Server.Tick (Block 2) Nat Nat)} {σ : Server (Block 2) Nat (Nat × Int) Nat}
    (h : SRun stripPipe.view ⟨[0], fun _ => none⟩ ks σ) (hs : σ.stop = true) : ∀ n, holder σ.out n = none :=
  ((C106_stop strip_plain strip_thin strip_builds h).1 hs).2

open Ex.Thin in
example : ∃ p : Pipeline 1, (∃ r, Builds [join] r p) ∧ ∀ b ∈ p.view.nodes, (p.view.up b).length ≤ 2 := by
  obtain ⟨r, h1, _⟩ := join_builds
  exact ⟨_, ⟨_, h1⟩, C106_two join_plain join_thin h1⟩

end Verif
