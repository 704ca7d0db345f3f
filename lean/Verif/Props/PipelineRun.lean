import Verif.Props.Pipeline

/-! # Executions of pipelines: C13, C15, C16, C17, C27, C50 -/

namespace Verif.Props

open Verif Spec Pipeline

variable {d : Nat} {tasks : List (Task d)} {p : Pipeline d}
variable {tr : List (Ev (Block d))} {st : Sched (Block d) Nat (Nat × Int)}

/-! ## C15 for every pipeline -/

/-- C15 for all pipelines whose scheduler can be built, whatever the links look like: when a block
is handed out, everything transitively upstream of it has completed. -/
theorem C15_pipeline (hp : Pipeline.init tasks = .ok p) (hid : UniqueIds tasks) (hw : p.Wf)
    (hr : p.RootLevels) (h : Run p.view tr st) {pre post : List (Ev (Block d))} {n a : Block d}
    (htr : tr = pre ++ .hand n :: post) (ha : Anc p.view a n) : Done pre a := by
  have ho := (h.ordered (roots_no_up (built_of_init hp hid).1 hw hr)).2
  have h1 := ho pre (.hand n) post htr
  have ho' : Ordered p.view pre := Ordered.take (post := .hand n :: post) (htr ▸ ho)
  exact ho'.anc h1 ha

/-- C13 in executions: when a block is handed out, every block of an upstream task that writes
something it reads has completed.  (`gx.Inside` is necessary: `C13_false`.) -/
theorem C13_data_complete_partial (hp : Pipeline.init tasks = .ok p) (hid : UniqueIds tasks)
    (hw : p.Wf) (hr : p.RootLevels) (h : Run p.view tr st) {pre post : List (Ev (Block d))}
    {x y : Nat} {gx : BGraph d} (hxy : x ∈ p.tg.ups y) (hgx : p.graphs x = some gx)
    (hin : gx.Inside) {a b : Block d} (ha : p.BlockOf x a) (hb : p.BlockOf y b)
    (htr : tr = pre ++ .hand b :: post) (hov : Overlap a.writeRoi b.readRoi) : Done pre a := by
  refine C15_pipeline hp hid hw hr h htr (Relation.TransGen.single ?_)
  exact (edge_iff (built_of_init hp hid).1 hw hb).2
    (C13_complete_partial hp hid hw hxy hgx hin ha hb hov)

/-! ## C16: no races -/

/-- C16 for every pipeline: two different blocks of a task with `read_write_conflict` that are both
being worked on for the first time never touch the same data: neither reads what the other writes.
Missing to the full claim: a block that has completed may be handed out again, see `C16_false`. -/
theorem C16_first_time_partial (hp : Pipeline.init tasks = .ok p) (hid : UniqueIds tasks)
    (hw : p.Wf) (hr : p.RootLevels) (h : Run p.view tr st) {x : Nat} {g : BGraph d}
    (hg : p.graphs x = some g) (hc : g.conflict = true) {a b : Block d} (ha : p.BlockOf x a)
    (hb : p.BlockOf x b) (hne : a ≠ b) (hha : Held tr a) (hhb : Held tr b) (hda : ¬ Done tr a)
    (hdb : ¬ Done tr b) : ¬ Overlap a.readRoi b.writeRoi := by
  intro hov
  have hbt := (built_of_init hp hid).1
  have ho := (h.ordered (roots_no_up hbt hw hr)).2
  obtain ⟨g1, bs, hg1, hbs, hma⟩ := ha
  rw [hg] at hg1; cases hg1
  obtain ⟨g2, bs2, hg2, hbs2, hmb⟩ := hb
  rw [hg] at hg2; cases hg2
  rw [hbs] at hbs2; cases hbs2
  rcases C07_conflict_ordered g (hw x g hg).1 hc hbs hma hmb hne hov with h1 | h1
  · exact hda (ho.anc (ho.held hhb) (anc_of_before hbt hw hg ⟨g, bs, hg, hbs, hmb⟩ h1))
  · exact hdb (ho.anc (ho.held hha) (anc_of_before hbt hw hg ⟨g, bs, hg, hbs, hma⟩ h1))

/-- C16 in full for pipelines whose links agree in both directions. -/
theorem C16_no_races_partial (hp : Pipeline.init tasks = .ok p) (hid : UniqueIds tasks)
    (hw : p.Wf) (hr : p.RootLevels) (hl : p.Linked) (hf : p.Fed) (h : Run p.view tr st) {x : Nat}
    {g : BGraph d} (hg : p.graphs x = some g) (hc : g.conflict = true) {a b : Block d}
    (ha : p.BlockOf x a) (hb : p.BlockOf x b) (hne : a ≠ b) (hha : Held tr a) (hhb : Held tr b) :
    ¬ Overlap a.readRoi b.writeRoi := by
  have hok := dgraph_OK (built_of_init hp hid).1 hw hr hl hf
  exact C16_first_time_partial hp hid hw hr h hg hc ha hb hne hha hhb
    ((C19_disjoint_partial hok h a).2.1 hha).1 ((C19_disjoint_partial hok h b).2.1 hhb).1

theorem single_unique {i : Nat} {info : TaskInfo d} : UniqueIds [(.node i info [] : Task d)] :=
  uniqueIds_of (L := [.node i info []]) (by simp) (by simp [TTree.requires]) (by simp)

/-- The conditions on links concern pipelines with several tasks only. -/
theorem single_task {i : Nat} {info : TaskInfo d} (hp : Pipeline.init [.node i info []] = .ok p) :
    p.tg.ids = [i] ∧ (∀ x, p.tg.ups x = []) ∧ p.Linked ∧ p.Fed := by
  obtain ⟨hb, htg⟩ := built_of_init hp single_unique
  have hids : p.tg.ids = [i] := by rw [htg]; rfl
  have hups : ∀ x, p.tg.ups x = [] := by
    intro x
    rw [List.eq_nil_iff_forall_not_mem]
    intro a ha
    obtain ⟨h1, h2⟩ := hb.inv.mem _ _ ha
    rw [hids, List.mem_singleton] at h1 h2
    exact hb.irrefl x (by rw [h1, ← h2] at ha; exact ha)
  refine ⟨hids, hups, ?_, ?_⟩
  · intro x y _ _ hxy
    rw [hups] at hxy
    cases hxy
  · intro y _ _ hy
    exact absurd (hups y) hy

/-- C16 in full for a single task, the most common use. -/
theorem C16_single_task {i : Nat} {info : TaskInfo d}
    (hp : Pipeline.init [.node i info []] = .ok p) (hw : p.Wf) (hr : p.RootLevels) (h : Run p.view tr st) (hc : info.conflict = true)
    {a b : Block d} (ha : p.BlockOf i a) (hb : p.BlockOf i b) (hne : a ≠ b) (hha : Held tr a)
    (hhb : Held tr b) : ¬ Overlap a.readRoi b.writeRoi ∧ ¬ Overlap a.writeRoi b.readRoi := by
  have hid := single_unique (i := i) (info := info)
  obtain ⟨_, _, hl, hf⟩ := single_task hp
  obtain ⟨g, _, hg, _⟩ := id ha
  have hgc : g.conflict = true := by
    obtain ⟨t, ⟨t', ht', hn⟩, _, _, h4⟩ := graphs_init hp hg
    rw [List.mem_singleton] at ht'
    subst ht'
    have : t = .node i info [] := by
      rcases Relation.ReflTransGen.cases_head hn with h | ⟨c, hc, _⟩
      · exact h.symm
      · cases hc
    subst this
    rw [(taskGraph_init h4).2.2.1]
    exact hc
  refine ⟨C16_no_races_partial hp hid hw hr hl hf h hg hgc ha hb hne hha hhb, ?_⟩
  rintro ⟨v, h1, h2⟩
  exact C16_no_races_partial hp hid hw hr hl hf h hg hgc hb ha (Ne.symm hne) hhb hha ⟨v, h2, h1⟩

/-- The symmetric example satisfies all conditions. -/
theorem Ex.sym_ok : (Ex.pipe [Ex.symB]).Wf ∧ (Ex.pipe [Ex.symB]).RootLevels ∧
    (Ex.pipe [Ex.symB]).Linked ∧ (Ex.pipe [Ex.symB]).Fed := by
  have hw := wf_of_regular Ex.sym_init Ex.sym_regular
  have hg := fun {x g} => Ex.pair_graphs (x := x) (g := g)
    (g0 := Ex.mk 0 (Ex.r1 0 2) (Ex.r1 0 2) false .valid (Ex.r1 0 8))
    (g1 := Ex.mk 1 (Ex.r1 0 4) (Ex.r1 1 3) true .valid (Ex.r1 0 8))
    Ex.sym_init (by decide) rfl rfl Ex.sym_unique
  have hup0 : (Ex.pipe [Ex.symB]).tg.ups 0 = [] := by decide
  have hup1 : (Ex.pipe [Ex.symB]).tg.ups 1 = [0] := by decide
  refine ⟨hw, rootLevels_of hw ?_, ?_, ?_⟩
  · intro x g hx h
    rcases hg h with ⟨rfl, rfl⟩ | ⟨rfl, rfl⟩
    · exact Or.inl rfl
    · rw [hup1] at hx; cases hx
  · intro x y gx gy hxy h1 h2
    rcases hg h2 with ⟨rfl, rfl⟩ | ⟨rfl, rfl⟩
    · rw [hup0] at hxy; cases hxy
    · rw [hup1, List.mem_singleton] at hxy
      subst hxy
      rcases hg h1 with ⟨_, rfl⟩ | ⟨h, _⟩
      · exact Ex.sym_linkOK
      · cases h
  · intro y b ⟨g, bs, h1, h2, h3⟩ hy
    rcases hg h1 with ⟨rfl, rfl⟩ | ⟨rfl, rfl⟩
    · exact absurd hup0 hy
    · have hbs : BGraph.blocks (Ex.mk 1 (Ex.r1 0 4) (Ex.r1 1 3) true .valid (Ex.r1 0 8)) =
          .ok [Ex.blk1 1 2 6 3 5 1, Ex.blk1 1 0 4 1 3 0, Ex.blk1 1 4 8 5 7 2] := by decide +kernel
      rw [hbs] at h2; cases h2
      refine ⟨0, by rw [hup1]; exact List.mem_singleton.2 rfl, ?_⟩
      simp only [List.mem_cons, List.not_mem_nil, or_false] at h3
      rcases h3 with rfl | rfl | rfl
      · exact ⟨Ex.blk1 0 2 4 2 4 1, ⟨_, _, rfl, rfl, by decide +kernel⟩, by decide +kernel⟩
      · exact ⟨Ex.blk1 0 0 2 0 2 0, ⟨_, _, rfl, rfl, by decide +kernel⟩, by decide +kernel⟩
      · exact ⟨Ex.blk1 0 4 6 4 6 2, ⟨_, _, rfl, rfl, by decide +kernel⟩, by decide +kernel⟩

/-- An execution of it in which two blocks of the conflict task are held at the same time; they do
not touch each other's data. -/
example : ∃ tr st, Run (Ex.pipe [Ex.symB]).view tr st ∧ Held tr (Ex.blk1 1 0 4 1 3 0) ∧
    Held tr (Ex.blk1 1 4 8 5 7 2) := by
  have hx : (exec (Ex.pipe [Ex.symB]).view (anyPick (Ex.blk1 0 0 2 0 2 0))
      [.acq 0 [], .acq 0 [], .acq 0 [], .acq 0 [], .good (Ex.blk1 0 0 2 0 2 0),
        .good (Ex.blk1 0 2 4 2 4 1), .good (Ex.blk1 0 4 6 4 6 2), .good (Ex.blk1 0 6 8 6 8 3),
        .acq 1 [], .good (Ex.blk1 1 2 6 3 5 1), .acq 1 [], .acq 1 []]).map
      (fun p => decide (Held p.1 (Ex.blk1 1 0 4 1 3 0) ∧ Held p.1 (Ex.blk1 1 4 8 5 7 2))) =
      some true := by decide +kernel
  obtain ⟨tr, st, hrun, e⟩ := exec_map (anyPick_legal _) _ hx
  rw [decide_eq_true_eq] at e
  exact ⟨tr, st, hrun, e⟩

/-- The calls of the counterexample: all blocks of task 0 succeed, then block `[4,6)` of task 1 is
acquired and succeeds, then task 1 is asked for three more blocks. -/
def Ex.asymActs : List (Act (Block 1) Nat) :=
  (List.replicate 8 (Act.acq 0 [])) ++
    ((List.range 8).map (fun k : Nat => Act.good (Ex.blk1 0 k (k + 1) k (k + 1) k))) ++
    [.acq 1 [], .good (Ex.blk1 1 2 6 4 6 2), .acq 1 [], .acq 1 [], .acq 1 []]

theorem Ex.asym_run : ∃ tr st, Run (Ex.pipe [Ex.asymB]).view tr st ∧
    Held tr (Ex.blk1 1 2 6 4 6 2) ∧ Held tr (Ex.blk1 1 4 8 6 8 3) ∧
    Done (tr.take 18) (Ex.blk1 1 2 6 4 6 2) ∧
    tr = tr.take 18 ++ .hand (Ex.blk1 1 2 6 4 6 2) :: tr.drop 19 ∧
    tr.count (.hand (Ex.blk1 1 2 6 4 6 2)) = 3 := by
  have hx : (exec (Ex.pipe [Ex.asymB]).view (anyPick (Ex.blk1 0 0 2 0 2 0)) Ex.asymActs).map
      (fun p => decide (Held p.1 (Ex.blk1 1 2 6 4 6 2) ∧ Held p.1 (Ex.blk1 1 4 8 6 8 3) ∧
        Done (p.1.take 18) (Ex.blk1 1 2 6 4 6 2) ∧
        p.1 = p.1.take 18 ++ .hand (Ex.blk1 1 2 6 4 6 2) :: p.1.drop 19 ∧
        p.1.count (.hand (Ex.blk1 1 2 6 4 6 2)) = 3)) = some true := by decide +kernel
  obtain ⟨tr, st, hrun, e⟩ := exec_map (anyPick_legal _) _ hx
  rw [decide_eq_true_eq] at e
  exact ⟨tr, st, hrun, e⟩

theorem Ex.asym_rootLevels : (Ex.pipe [Ex.asymB]).RootLevels := by
  have hw := wf_of_regular Ex.asym_init Ex.asym_regular
  refine rootLevels_of hw ?_
  intro x g hx h
  rcases Ex.pair_graphs (g0 := Ex.mk 0 (Ex.r1 0 1) (Ex.r1 0 1) false .valid (Ex.r1 0 8))
    (g1 := Ex.mk 1 (Ex.r1 0 4) (Ex.r1 2 4) true .valid (Ex.r1 0 8)) Ex.asym_init (by decide) rfl rfl
    Ex.asym_unique h with ⟨rfl, rfl⟩ | ⟨rfl, rfl⟩
  · exact Or.inl rfl
  · have : (Ex.pipe [Ex.asymB]).tg.ups 1 = [0] := by decide
    rw [this] at hx; cases hx

/-- C17 is false for pipelines whose dependent task has different context on the two sides: a block
that has completed is handed out again, in fact twice, so that two workers have it at once. -/
theorem C17_false_asymmetric : ∃ (tasks : List (Task 1)) (p : Pipeline 1),
    Pipeline.init tasks = .ok p ∧ UniqueIds tasks ∧ p.Wf ∧ p.RootLevels ∧ ∃ tr st b pre post,
      Run p.view tr st ∧ p.BlockOf 1 b ∧ tr = pre ++ .hand b :: post ∧ Done pre b ∧
      (∀ n, .bad n ∉ tr) ∧ tr.count (.good b) + 2 = tr.count (.hand b) := by
  have hx : (exec (Ex.pipe [Ex.asymB]).view (anyPick (Ex.blk1 0 0 2 0 2 0)) Ex.asymActs).map
      (fun p => decide ((∀ e ∈ p.1, e ≠ .bad e.node) ∧
        Done (p.1.take 18) (Ex.blk1 1 2 6 4 6 2) ∧
        p.1 = p.1.take 18 ++ .hand (Ex.blk1 1 2 6 4 6 2) :: p.1.drop 19 ∧
        p.1.count (.good (Ex.blk1 1 2 6 4 6 2)) + 2 = p.1.count (.hand (Ex.blk1 1 2 6 4 6 2)))) =
      some true := by decide +kernel
  obtain ⟨tr, st, hrun, e⟩ := exec_map (anyPick_legal _) _ hx
  rw [decide_eq_true_eq] at e
  exact ⟨[Ex.asymB], _, Ex.asym_init, Ex.asym_unique, wf_of_regular Ex.asym_init Ex.asym_regular,
    Ex.asym_rootLevels, tr, st, _, _, _, hrun, ⟨_, _, rfl, rfl, by decide +kernel⟩, e.2.2.1, e.2.1,
    fun n hn => e.1 _ hn rfl, e.2.2.2⟩

/-- C16 is false for such pipelines: blocks `[4,6)` (handed out again) and `[6,8)` of a task with
`read_write_conflict` are held at the same time, and the second reads what the first writes. -/
theorem C16_false_asymmetric : ∃ (tasks : List (Task 1)) (p : Pipeline 1) (g : BGraph 1),
    Pipeline.init tasks = .ok p ∧ UniqueIds tasks ∧ p.Wf ∧ p.RootLevels ∧ p.graphs 1 = some g ∧
    g.conflict = true ∧ ∃ tr st a b, Run p.view tr st ∧ p.BlockOf 1 a ∧ p.BlockOf 1 b ∧ a ≠ b ∧
      Held tr a ∧ Held tr b ∧ Overlap a.writeRoi b.readRoi := by
  obtain ⟨tr, st, h1, h2, h3, _⟩ := Ex.asym_run
  exact ⟨[Ex.asymB], _, _, Ex.asym_init, Ex.asym_unique, wf_of_regular Ex.asym_init Ex.asym_regular,
    Ex.asym_rootLevels, rfl, rfl, tr, st, _, _, h1, ⟨_, _, rfl, rfl, by decide +kernel⟩,
    ⟨_, _, rfl, rfl, by decide +kernel⟩, by decide +kernel, h2, h3, by decide +kernel⟩

/-! ## C27: dependent blocks are scheduled -/

/-- C27, for pipelines whose links agree in both directions and whose dependent blocks all read
something an upstream block writes: if no block fails and nothing is left to hand out or to wait
for, every block of every task has completed. -/
theorem C27_all_complete_partial (hp : Pipeline.init tasks = .ok p) (hid : UniqueIds tasks)
    (hw : p.Wf) (hr : p.RootLevels) (hl : p.Linked) (hf : p.Fed) (h : Run p.view tr st)
    (hbad : ∀ n, .bad n ∉ tr) (hq : st.getReadyTasks p.view = []) (hh : ∀ n, ¬ Held tr n) {x : Nat}
    {b : Block d} (hb : p.BlockOf x b) : Done tr b := by
  have hbt := (built_of_init hp hid).1
  have hok := dgraph_OK hbt hw hr hl hf
  obtain ⟨ns, n1, _, n3⟩ := blocks_spec hbt hw
  have i0 : p.view.nodes = ns := okOr_ok n1
  have hm : b ∈ p.view.nodes := i0 ▸ (n3 b).2 ⟨x, hb⟩
  rcases C20_no_block_forgotten_partial hok h hq hh b hm with h1 | h1 | ⟨f, h1, _⟩
  · exact h1
  · exact absurd h1.1 (hbad b)
  · exact absurd h1.1 (hbad f)

/-- Also in full for a single task. -/
theorem C27_single_task {i : Nat} {info : TaskInfo d}
    (hp : Pipeline.init [.node i info []] = .ok p) (hw : p.Wf) (hr : p.RootLevels)
    (h : Run p.view tr st) (hbad : ∀ n, .bad n ∉ tr) (hq : st.getReadyTasks p.view = [])
    (hh : ∀ n, ¬ Held tr n) {b : Block d} (hb : p.BlockOf i b) : Done tr b :=
  C27_all_complete_partial hp single_unique hw hr (single_task hp).2.2.1 (single_task hp).2.2.2 h hbad
    hq hh hb

theorem not_held_of {tr : List (Ev (Block d))} (h : ∀ e ∈ tr, ¬ Held tr e.node) (n : Block d) :
    ¬ Held tr n := by
  intro hn
  have hm : Ev.hand n ∈ tr := by
    rw [← List.count_pos_iff]
    unfold Held at hn
    omega
  exact h _ hm hn

/-- C27 is false when a block of the dependent task reads nothing an upstream task writes: task 1
covers `[0,4)`, its upstream task only `[0,2)`.  Everything that is handed out succeeds, nothing is
held, nothing is ready, but blocks `[2,3)` and `[3,4)` of task 1 have not run, and the task is not
done: the server waits forever. -/
theorem C27_false_no_upstream : ∃ (tasks : List (Task 1)) (p : Pipeline 1),
    Pipeline.init tasks = .ok p ∧ UniqueIds tasks ∧ p.Wf ∧ p.RootLevels ∧ p.Linked ∧
    ∃ tr st b, Run p.view tr st ∧ (∀ n, .bad n ∉ tr) ∧ (∀ n, ¬ Held tr n) ∧
      st.getReadyTasks p.view = [] ∧ p.BlockOf 1 b ∧ ¬ Done tr b ∧ (st.states 1).isDone = false := by
  have hw := wf_of_regular Ex.big_init Ex.big_regular
  have hg := fun {x g} => Ex.pair_graphs (x := x) (g := g)
    (g0 := Ex.mk 0 (Ex.r1 0 1) (Ex.r1 0 1) false .valid (Ex.r1 0 2))
    (g1 := Ex.mk 1 (Ex.r1 0 1) (Ex.r1 0 1) false .valid (Ex.r1 0 4))
    Ex.big_init (by decide) rfl rfl Ex.big_unique
  have hup0 : (Ex.pipe [Ex.bigB]).tg.ups 0 = [] := by decide
  have hup1 : (Ex.pipe [Ex.bigB]).tg.ups 1 = [0] := by decide
  have hx : (exec (Ex.pipe [Ex.bigB]).view (anyPick (Ex.blk1 0 0 2 0 2 0))
      [.acq 0 [], .acq 0 [], .good (Ex.blk1 0 0 1 0 1 0), .good (Ex.blk1 0 1 2 1 2 1),
        .acq 1 [], .acq 1 [], .good (Ex.blk1 1 0 1 0 1 0), .good (Ex.blk1 1 1 2 1 2 1)]).map
      (fun p => decide ((∀ e ∈ p.1, e ≠ .bad e.node) ∧ (∀ e ∈ p.1, ¬ Held p.1 e.node) ∧
        p.2.getReadyTasks (Ex.pipe [Ex.bigB]).view = [] ∧ ¬ Done p.1 (Ex.blk1 1 2 3 2 3 2) ∧
        (p.2.states 1).isDone = false)) =
      some true := by decide +kernel
  obtain ⟨tr, st, hrun, e⟩ := exec_map (anyPick_legal _) _ hx
  rw [decide_eq_true_eq] at e
  refine ⟨[Ex.bigB], _, Ex.big_init, Ex.big_unique, hw, rootLevels_of hw ?_, ?_, tr, st, _, hrun,
    fun n hn => e.1 _ hn rfl, not_held_of e.2.1, e.2.2.1, ⟨_, _, rfl, rfl, by decide +kernel⟩,
    e.2.2.2.1, e.2.2.2.2⟩
  · intro x g _ h
    rcases hg h with ⟨_, rfl⟩ | ⟨_, rfl⟩ <;> exact Or.inl rfl
  · intro x y gx gy hxy h1 h2
    rcases hg h2 with ⟨rfl, rfl⟩ | ⟨rfl, rfl⟩
    · rw [hup0] at hxy; cases hxy
    · rw [hup1, List.mem_singleton] at hxy
      subst hxy
      rcases hg h1 with ⟨_, rfl⟩ | ⟨h, _⟩
      · refine ⟨Or.inl (by decide), ⟨0, Or.inl (by decide)⟩, Or.inl (by decide),
          ⟨0, Or.inl (by decide)⟩, ?_, ?_⟩
        · unfold BGraph.Symmetric; decide
        · unfold BGraph.CtxNonneg; decide
      · cases h

/-- C27 is false when the dependent task overhangs: here every block of task 1 reads something an
upstream block writes, but the overhanging block never becomes ready. -/
theorem C27_false_overhang : ∃ (tasks : List (Task 1)) (p : Pipeline 1),
    Pipeline.init tasks = .ok p ∧ UniqueIds tasks ∧ p.Wf ∧ p.RootLevels ∧
    ∃ tr st a b, Run p.view tr st ∧ (∀ n, .bad n ∉ tr) ∧ (∀ n, ¬ Held tr n) ∧
      st.getReadyTasks p.view = [] ∧ p.BlockOf 1 b ∧ p.BlockOf 0 a ∧ Overlap a.writeRoi b.readRoi ∧
      ¬ Done tr b ∧ (st.states 1).isDone = false := by
  have hw := wf_of_regular Ex.over_init Ex.over_regular
  have hg := fun {x g} => Ex.pair_graphs (x := x) (g := g)
    (g0 := Ex.mk 0 (Ex.r1 0 1) (Ex.r1 0 1) false .valid (Ex.r1 0 4))
    (g1 := Ex.mk 1 (Ex.r1 0 2) (Ex.r1 0 2) false .overhang (Ex.r1 0 3))
    Ex.over_init (by decide) rfl rfl Ex.over_unique
  have hx : (exec (Ex.pipe [Ex.overB]).view (anyPick (Ex.blk1 0 0 2 0 2 0))
      [.acq 0 [], .acq 0 [], .acq 0 [], .acq 0 [], .good (Ex.blk1 0 0 1 0 1 0),
        .good (Ex.blk1 0 1 2 1 2 1), .good (Ex.blk1 0 2 3 2 3 2), .good (Ex.blk1 0 3 4 3 4 3),
        .acq 1 [], .good (Ex.blk1 1 0 2 0 2 0)]).map
      (fun p => decide ((∀ e ∈ p.1, e ≠ .bad e.node) ∧ (∀ e ∈ p.1, ¬ Held p.1 e.node) ∧
        p.2.getReadyTasks (Ex.pipe [Ex.overB]).view = [] ∧ ¬ Done p.1 (Ex.blk1 1 2 4 2 4 1) ∧
        (p.2.states 1).isDone = false)) =
      some true := by decide +kernel
  obtain ⟨tr, st, hrun, e⟩ := exec_map (anyPick_legal _) _ hx
  rw [decide_eq_true_eq] at e
  refine ⟨[Ex.overB], _, Ex.over_init, Ex.over_unique, hw, rootLevels_of hw ?_, tr, st,
    Ex.blk1 0 2 3 2 3 2, _, hrun,
    fun n hn => e.1 _ hn rfl, not_held_of e.2.1, e.2.2.1, ⟨_, _, rfl, rfl, by decide +kernel⟩,
    ⟨_, _, rfl, rfl, by decide +kernel⟩, by decide +kernel, e.2.2.2.1, e.2.2.2.2⟩
  intro x g _ h
  rcases hg h with ⟨_, rfl⟩ | ⟨_, rfl⟩ <;> exact Or.inl rfl

/-! ## C50: tasks without blocks -/

/-- C50, construction: the scheduler can be built if every task without upstream tasks has a block or
has no `read_write_conflict`. -/
theorem C50_builds_partial (hp : Pipeline.init tasks = .ok p) (hid : UniqueIds tasks) (hw : p.Wf)
    (h : ∀ x g, p.tg.ups x = [] → p.graphs x = some g → g.conflict = false ∨ g.blocks ≠ .ok []) :
    p.dgraph = .ok p.view := dgraph_ok (built_of_init hp hid).1 hw (rootLevels_of hw h)

/-- C50: a task without blocks counts as done from the start, and is not listed as ready. -/
theorem C50_done_immediately (hp : Pipeline.init tasks = .ok p) (hid : UniqueIds tasks) (hw : p.Wf)
    (hr : p.RootLevels) {x : Nat} {g : BGraph d} (hg : p.graphs x = some g)
    (hb : g.blocks = .ok []) :
    ((Sched.init p.view).states x).isDone = true ∧ x ∉ (Sched.init p.view).getReadyTasks p.view := by
  have hbt := (built_of_init hp hid).1
  have hx := hbt.only x g hg
  have htot : p.view.total x = 0 :=
    okOr_ok ((bind_graphOf hg _).trans (C05_num_blocks g (hw x g hg).1 hb).2)
  obtain ⟨_, _, h3⟩ := Sched.init_totals (g := p.view) p.view.tasks
    (p.view.rootTasks.foldl (fun st t =>
      (st.modState t (fun s => { s with ready := s.ready + p.view.numRoots t })).modQueue t
        (fun _ => PQueue.init (p.view.numRoots t) (p.view.rootGen t)))
      ⟨RS.init, fun _ => TState.init, fun _ => PQueue.init 0 []⟩)
  have h4 := h3 x
  have hnd : p.view.rootTasks.Nodup := hbt.inv.nodup.filter _
  rw [if_pos (show x ∈ p.view.tasks from hx), Sched.init_states _ _ hnd] at h4
  change (Sched.init p.view).states x = _ at h4
  have hroots : x ∈ p.view.rootTasks → p.view.numRoots x = 0 := by
    intro hxr
    obtain ⟨_, hx2⟩ := (mem_rootTasks x).1 hxr
    obtain ⟨rs, r1, _, r3⟩ := C05_num_roots g (hw x g hg).1 (hw x g hg).2.1 (hr x g hx2 hg)
    have : rs = [] := by
      rw [List.eq_nil_iff_forall_not_mem]
      intro b hb'
      have := ((C10_roots g (hw x g hg).1 (hw x g hg).2.1 (hr x g hx2 hg) hb r1 b).1 hb').1
      cases this
    subst this
    exact okOr_ok ((bind_graphOf hg _).trans r3)
  constructor
  · rw [h4]
    split <;> simp [TState.isDone, TState.init, htot]
  · unfold Sched.getReadyTasks
    rw [List.mem_filter, h4]
    rintro ⟨_, h⟩
    split at h
    · rename_i hxr
      simp [TState.init, hroots hxr] at h
    · simp [TState.init] at h

/-- A pipeline of two tasks without blocks meets the conditions. -/
example : (Ex.pipe [Ex.noneB]).RootLevels ∧ (Ex.pipe [Ex.noneB]).dgraph = .ok (Ex.pipe [Ex.noneB]).view ∧
    (∃ g, (Ex.pipe [Ex.noneB]).graphs 1 = some g ∧ g.blocks = .ok []) := by
  have hw := wf_of_regular Ex.noneB_init Ex.noneB_all_regular
  have h : ∀ x g, (Ex.pipe [Ex.noneB]).tg.ups x = [] → (Ex.pipe [Ex.noneB]).graphs x = some g →
      g.conflict = false ∨ g.blocks ≠ .ok [] := by
    intro x g hx h
    rcases Ex.pair_graphs (g0 := Ex.mk 0 (Ex.r1 0 4) (Ex.r1 0 4) false .valid (Ex.r1 0 3))
      (g1 := Ex.mk 1 (Ex.r1 0 4) (Ex.r1 0 4) true .valid (Ex.r1 0 3)) Ex.noneB_init (by decide) rfl rfl
      Ex.noneB_unique h with ⟨rfl, rfl⟩ | ⟨rfl, rfl⟩
    · exact Or.inl rfl
    · have : (Ex.pipe [Ex.noneB]).tg.ups 1 = [0] := by decide
      rw [this] at hx; cases hx
  exact ⟨rootLevels_of hw h, C50_builds_partial Ex.noneB_init Ex.noneB_unique hw h, _, rfl, rfl⟩

/-- C50 is false for a root task with `read_write_conflict` (the default) whose total ROI is smaller
than a block: building the scheduler raises `IndexError`. -/
theorem C50_false : ∃ (tasks : List (Task 1)) (p : Pipeline 1) (g : BGraph 1),
    Pipeline.init tasks = .ok p ∧ UniqueIds tasks ∧ p.Wf ∧ p.graphs 0 = some g ∧ g.blocks = .ok [] ∧
    p.dgraph = .error .indexError :=
  ⟨[Ex.noneC], Ex.pipe [Ex.noneC], _, Ex.noneC_init, Ex.noneC_unique,
    wf_of_regular Ex.noneC_init Ex.noneC_all_regular, rfl, rfl, rfl⟩

end Verif.Props
