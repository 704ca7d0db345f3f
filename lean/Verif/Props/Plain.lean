import Verif.Proofs.Plain
import Verif.Props.PipelineRun
import Verif.Props.Serial
import Verif.Props.Convenience
import Verif.Props.ServerFair
import Verif.Props.ServerEnd

/-! # C80: pipelines without surprises

The partial theorems of C13, C14, C16, C27, C37, C41, C70 and C71 have conditions on the dependency graph.
Here the conditions are on what the user writes down (`PlainTasks`), and `run_blockwise` is followed from
the list of tasks that the user passes. -/

namespace Verif.Props

open Verif Spec Pipeline

variable {d : Nat} {tasks r : List (Task d)} {p : Pipeline d}

/-- Flattening does not change which tasks are required. -/
theorem flatten_required (hid : UniqueIds tasks) (hr : Convenience.flatten tasks = .ok r) (s : Task d) :
    Required r s ↔ Required tasks s := by
  obtain ⟨_, h2⟩ := C40_flatten_tasks tasks hid hr
  constructor
  · rintro ⟨t, ht, hts⟩
    obtain ⟨t0, ht0, h0⟩ := (h2 t).1 ht
    exact ⟨t0, ht0, h0.trans hts⟩
  · intro hs
    exact ⟨s, (h2 s).2 hs, Relation.ReflTransGen.refl⟩

theorem flatten_plain (h : PlainTasks tasks) (hr : Convenience.flatten tasks = .ok r) : PlainTasks r := by
  have hreq := flatten_required h.unique hr
  exact ⟨fun s s' hs hs' => h.unique s s' ((hreq s).1 hs) ((hreq s').1 hs'),
    fun t ht => h.plain t ((hreq t).1 ht), fun t ht => h.symmetric t ((hreq t).1 ht),
    fun t ht => h.nested t ((hreq t).1 ht)⟩

/-- The tasks of `p` are what `run_blockwise(tasks)` builds. -/
structure Builds (tasks r : List (Task d)) (p : Pipeline d) : Prop where
  flat : Convenience.flatten tasks = .ok r
  init : Pipeline.init r = .ok p
  sched : p.dgraph = .ok p.view

/-- C80: `run_blockwise` of a plain pipeline gets as far as the event loop: no exception is raised while the
list is flattened, the dependency graph is built and the scheduler is built. -/
theorem C80_builds (h : PlainTasks tasks) : ∃ r p, Builds tasks r p := by
  obtain ⟨r, hr, _⟩ := C40_flatten tasks
  have h' := flatten_plain h hr
  obtain ⟨p, hp⟩ := init_ok h'.plain
  exact ⟨r, p, hr, hp, dgraph_ok (built_of_init hp h'.unique).1 (plain_wf hp h') (plain_rootLevels hp h')⟩

variable (h : PlainTasks tasks) (hb : Builds tasks r p)

include h hb

theorem Builds.wf : p.Wf := plain_wf hb.init (flatten_plain h hb.flat)

theorem Builds.unique : UniqueIds r := (flatten_plain h hb.flat).unique

theorem Builds.rootLevels : p.RootLevels := plain_rootLevels hb.init (flatten_plain h hb.flat)

theorem Builds.linked : p.Linked := plain_linked hb.init (flatten_plain h hb.flat)

theorem Builds.fed : p.Fed := plain_fed hb.init (flatten_plain h hb.flat)

theorem Builds.ok : p.view.OK :=
  dgraph_OK (built_of_init hb.init (hb.unique h)).1 (hb.wf h) (hb.rootLevels h) (hb.linked h) (hb.fed h)

theorem Builds.mem_nodes {x : Nat} {b : Block d} (hx : p.BlockOf x b) : b ∈ p.view.nodes := by
  obtain ⟨ns, n1, _, n3⟩ := blocks_spec (built_of_init hb.init (hb.unique h)).1 (hb.wf h)
  have i0 : p.view.nodes = ns := okOr_ok n1
  exact i0 ▸ (n3 b).2 ⟨x, hx⟩

theorem Builds.of_nodes {b : Block d} (hx : b ∈ p.view.nodes) : ∃ x, p.BlockOf x b := by
  obtain ⟨ns, n1, _, n3⟩ := blocks_spec (built_of_init hb.init (hb.unique h)).1 (hb.wf h)
  have i0 : p.view.nodes = ns := okOr_ok n1
  exact (n3 b).1 (i0 ▸ hx)

/-- All tasks of the graph are served: there is a process function and a queue for each. -/
theorem Builds.served : ∀ t ∈ p.view.tasks, t ∈ r.map TTree.id := by
  intro t ht
  have ht : t ∈ p.tg.ids := ht
  rw [(built_of_init hb.init (hb.unique h)).2, C54_all_recorded r (hb.unique h)] at ht
  obtain ⟨s, hs, rfl⟩ := ht
  exact List.mem_map.2 ⟨s, ((C40_flatten_tasks tasks h.unique hb.flat).2 s).2
    ((flatten_required h.unique hb.flat s).1 hs), rfl⟩

/-- The graph of a required task. -/
theorem Builds.graph {t : Task d} (ht : Required tasks t) :
    ∃ g bs, p.graphs t.id = some g ∧ taskGraph t = .ok g ∧ g.blocks = .ok bs := by
  have hbt := built_of_init hb.init (hb.unique h)
  have hr : Required r t := (flatten_required h.unique hb.flat t).2 ht
  have hm : t.id ∈ p.tg.ids := by
    rw [hbt.2, C54_all_recorded r (hb.unique h)]
    exact ⟨t, hr, rfl⟩
  obtain ⟨g, hg, _⟩ := hbt.1.graph t.id hm
  obtain ⟨s, s1, s2, _, s4⟩ := graphs_init hb.init hg
  have : s = t := hb.unique h s t s1 hr s2
  subst this
  obtain ⟨bs, hbs⟩ := C05_enumeration_ok g (hb.wf h _ _ hg).1
  exact ⟨g, bs, hg, s4, hbs⟩

theorem Builds.link {s t : Task d} (ht : Required tasks t) (hs : s ∈ t.requires) :
    Required tasks s ∧ s.id ∈ p.tg.ups t.id := by
  constructor
  · obtain ⟨t0, ht0, hn⟩ := ht
    exact ⟨t0, ht0, hn.tail hs⟩
  · rw [(built_of_init hb.init (hb.unique h)).2,
      C54_upstream r (hb.unique h) ((flatten_required h.unique hb.flat t).2 ht)]
    exact ⟨s, hs, rfl⟩

/-- C80, links: a block of an upstream task is reported upstream of a block of a task that requires it exactly
if it writes something the other reads, and downstream is the converse. -/
theorem C80_links {s t : Task d} (ht : Required tasks t) (hs : s ∈ t.requires) {a b : Block d}
    (ha : p.BlockOf s.id a) (hbb : p.BlockOf t.id b) :
    (p.Up a b ↔ Overlap a.writeRoi b.readRoi) ∧ (p.Down a b ↔ Overlap a.writeRoi b.readRoi) := by
  obtain ⟨hsr, hl⟩ := hb.link h ht hs
  obtain ⟨gx, _, hgx, _⟩ := hb.graph h hsr
  obtain ⟨gy, _, hgy, _⟩ := hb.graph h ht
  obtain ⟨h1, h2⟩ := C14_inverse_partial hb.init (hb.unique h) (hb.wf h) hl hgx hgy
    (hb.linked h _ _ _ _ hl hgx hgy) ha hbb
  exact ⟨h2, h1.trans h2⟩

/-- C80, order: when a block is handed out, every block of an upstream task that writes something it reads has
completed, in every execution (any number of workers, failures, retries). -/
theorem C80_data_complete {tr : List (Ev (Block d))} {st : Sched (Block d) Nat (Nat × Int)}
    (hrun : Run p.view tr st) {s t : Task d} (ht : Required tasks t) (hs : s ∈ t.requires) {a b : Block d}
    (ha : p.BlockOf s.id a) (hbb : p.BlockOf t.id b) {pre post : List (Ev (Block d))}
    (htr : tr = pre ++ .hand b :: post) (hov : Overlap a.writeRoi b.readRoi) : Done pre a := by
  obtain ⟨hsr, hl⟩ := hb.link h ht hs
  obtain ⟨gx, _, hgx, _⟩ := hb.graph h hsr
  obtain ⟨gy, _, hgy, _⟩ := hb.graph h ht
  exact C13_data_complete_partial hb.init (hb.unique h) (hb.wf h) (hb.rootLevels h) hrun hl hgx
    (hb.linked h _ _ _ _ hl hgx hgy).1 ha hbb htr hov

/-- C80, no races: two blocks of a task with `read_write_conflict` that are out at the same time do not touch
each other's data. -/
theorem C80_no_races {tr : List (Ev (Block d))} {st : Sched (Block d) Nat (Nat × Int)}
    (hrun : Run p.view tr st) {t : Task d} (ht : Required tasks t) (hc : t.info.conflict = true)
    {a b : Block d} (ha : p.BlockOf t.id a) (hbb : p.BlockOf t.id b) (hne : a ≠ b) (hha : Held tr a)
    (hhb : Held tr b) : ¬ Overlap a.readRoi b.writeRoi := by
  obtain ⟨g, _, hg, ht4, _⟩ := hb.graph h ht
  have hgc : g.conflict = true := by rw [(taskGraph_init ht4).2.2.1]; exact hc
  exact C16_no_races_partial hb.init (hb.unique h) (hb.wf h) (hb.rootLevels h) (hb.linked h) (hb.fed h) hrun
    hg hgc ha hbb hne hha hhb

/-- The scheduler uses the `max_retries` of the task. -/
theorem Builds.maxRetries {t : Task d} (ht : Required tasks t) {b : Block d} (hbb : p.BlockOf t.id b) :
    p.view.maxRetries (p.view.task b) = t.info.maxRetries := by
  have hbt := built_of_init hb.init (hb.unique h)
  have e : p.view.task b = t.id := blockOf_taskId hbt.1 (hb.wf h) hbb
  obtain ⟨g, _, hg, _⟩ := id hbb
  obtain ⟨s, s1, s2, s3, _⟩ := graphs_init hb.init hg
  have : s = t := hb.unique h s t s1 ((flatten_required h.unique hb.flat t).2 ht) s2
  subst this
  rw [e]
  change p.maxRetries s.id = _
  unfold Pipeline.maxRetries
  rw [s3]

/-- C80, attempts: a block of a task is handed out at most `max_retries` times more than once, with the
`max_retries` this task was made with; and a block that failed is given another chance exactly if it failed at most
that often. -/
theorem C80_attempts {tr : List (Ev (Block d))} {st : Sched (Block d) Nat (Nat × Int)}
    (hrun : Run p.view tr st) {t : Task d} (ht : Required tasks t) {b : Block d} (hbb : p.BlockOf t.id b) :
    tr.count (.hand b) ≤ t.info.maxRetries.toNat + 1 ∧
    (Held tr b → ∀ pick, LegalPick pick → ∃ st', st.releaseBlock p.view pick b .failed = .ok st' ∧
      Run p.view (tr ++ [.bad b]) st' ∧
      (Ready p.view (tr ++ [.bad b]) b ↔ (tr.count (.bad b) : Int) < t.info.maxRetries)) := by
  have hm := hb.maxRetries h ht hbb
  refine ⟨hm ▸ C18_attempts_partial (hb.ok h) hrun b, fun hh pick hp => ?_⟩
  obtain ⟨st', h1, h2, h3, h4, _⟩ := C18_retry_iff_partial (hb.ok h) hrun hh hp
  refine ⟨st', h1, h2, ?_⟩
  have hq : (tr ++ [Ev.bad b]).count (.bad b) = tr.count (.bad b) + 1 := by simp
  rw [hm, hq] at h4
  push_cast at h4
  constructor
  · intro hr
    have := mt h4.2 hr.2.2.2.1
    omega
  · intro hlt
    have hq' := h3.2 (by rw [hm, hq]; push_cast; omega)
    exact (((C19_queue_partial (hb.ok h) h2 _).2 b).1 (List.mem_append_right _ hq')).1

/-- Every voxel of the written area lies in exactly one block, if the blocks leave no remainder. -/
theorem Builds.cover {t : Task d} (ht : Required tasks t) (hcov : t.info.fit ≠ .valid ∨ t.info.Divides)
    {v : Coord d} (hv : InRoi v t.info.writes) : ∃! b, p.BlockOf t.id b ∧ InRoi v b.writeRoi := by
  obtain ⟨g, bs, hg, ht4, hbs⟩ := hb.graph h ht
  have hw := (hb.wf h _ _ hg).1
  obtain ⟨e1, e2, _, e4, _, _⟩ := taskGraph_init ht4
  rw [← writes_eq ht4] at hv
  have hex : ∃! b, b ∈ bs ∧ InRoi v b.writeRoi := by
    by_cases hf : g.fit = .valid
    · rcases hcov with h1 | h1
      · exact absurd (e4 ▸ hf) h1
      · refine C02_cover_valid_exact g hw hf hbs (fun i => ?_) v hv
        unfold BGraph.w BGraph.t
        rw [writes_eq ht4, e2]
        exact h1 i
    · exact C02_cover g hw hf hbs v hv
  obtain ⟨b, ⟨h1, h2⟩, h3⟩ := hex
  refine ⟨b, ⟨⟨g, bs, hg, hbs, h1⟩, h2⟩, ?_⟩
  rintro b' ⟨⟨g', bs', hg', hbs', hm⟩, h5⟩
  rw [hg] at hg'; cases hg'
  rw [hbs] at hbs'; cases hbs'
  exact h3 b' ⟨hm, h5⟩

/-- C80, without multiprocessing: if the process functions succeed and no check function accepts a block,
`run_blockwise(tasks, multiprocessing=False)` comes to its end without an exception, after at most one pass
more than there are blocks. -/
theorem C80_serial_returns (tick : Nat → SerTick (Block d) Nat) (hpick : ∀ i, LegalPick (tick i).pick)
    (hk : ∀ i, SerTick.Succeeds (tick i)) :
    ∃ m σ, m ≤ p.view.nodes.length + 1 ∧ SerRun p.view (r.map TTree.id) ((List.range m).map tick) σ ∧
      σ.ended = true :=
  C37_returns_partial (hb.ok h) (hb.served h) tick hpick hk

/-- C80, without multiprocessing: and then every voxel that a task should write has been written exactly once
by exactly one block of that task, after everything that this block reads had been written by the upstream
tasks. -/
theorem C80_serial_voxels {ks : List (SerTick (Block d) Nat)} {σ : Serial (Block d) Nat (Nat × Int)}
    (hrun : SerRun p.view (r.map TTree.id) ks σ)
    (hk : ∀ k ∈ ks, SerTick.Succeeds k ∧ SerTick.NoSkips k) (hend : σ.ended = true) {t : Task d}
    (ht : Required tasks t) (hcov : t.info.fit ≠ .valid ∨ t.info.Divides) {v : Coord d}
    (hv : InRoi v t.info.writes) :
    ∃ b, p.BlockOf t.id b ∧ InRoi v b.writeRoi ∧ σ.out.count (.call b) = 1 ∧
      (∀ b', .call b' ∈ σ.out → b'.taskId = t.id → InRoi v b'.writeRoi → b' = b) ∧
      ∀ pre post, σ.out = pre ++ .call b :: post → ∀ s ∈ t.requires, ∀ a, p.BlockOf s.id a →
        Overlap a.writeRoi b.readRoi → .release a .success ∈ pre := by
  obtain ⟨b, ⟨h1, h2⟩, h3⟩ := hb.cover h ht hcov hv
  obtain ⟨c1, c2, _⟩ := C37_each_once_partial (hb.ok h) (hb.served h) hrun hk hend
  have hbt := (built_of_init hb.init (hb.unique h)).1
  refine ⟨b, h1, h2, (c1 b (hb.mem_nodes h h1)).1, ?_, ?_⟩
  · intro b' hb' hid hv'
    obtain ⟨x, hx⟩ := hb.of_nodes h (c2 b' hb')
    have := blockOf_taskId hbt (hb.wf h) hx
    rw [hid] at this
    subst this
    exact h3 b' ⟨hx, hv'⟩
  · intro pre post ho s hs a ha hov
    have hup := (C80_links h hb ht hs ha h1).1.2 hov
    have he : Edge p.view a b := (edge_iff hbt (hb.wf h) h1).2 hup
    rcases C37_order (hb.ok h) hrun ho (Relation.TransGen.single he) with h5 | h5
    · exact h5
    · exfalso
      exact no_skip (hb.ok h) hrun (fun k hk' => (hk k hk').2) a
        ((mem_skip σ.out a).2 (by rw [ho]; exact List.mem_append_left _ h5))

section server

variable {S : Type} [DecidableEq S] {cfg : SConf Nat}

/-- C80, with workers: as long as no block fails for good, the server stops only when every block of every task
has completed, and then `run_blockwise` returns `True`. -/
theorem C80_server_result {ks : List (Server.Tick (Block d) Nat S)} {σ : Server (Block d) Nat (Nat × Int) S}
    (hrun : SRun p.view cfg ks σ) (hf : ∀ n, ¬ Dead p.view (evs σ.out) n) (hstop : σ.stop = true) :
    (∀ x b, p.BlockOf x b → Done (evs σ.out) b) ∧ Server.result p.view σ = true := by
  have hx : OrphanExact p.view (evs σ.out) := exact_of_one (fun n _ f f' hd _ _ _ => absurd hd (hf f))
  have hd : ∀ n ∈ p.view.nodes, Done (evs σ.out) n := by
    intro n hn
    rcases ((C34_stop_means_finished_partial (hb.ok h) hrun hx).1 hstop).1 n hn with h1 | h1 | ⟨f, h1, _⟩
    · exact h1
    · exact absurd h1 (hf n)
    · exact absurd h1 (hf f)
  exact ⟨fun x b hx => hd b (hb.mem_nodes h hx), C41_all_done (hb.ok h) hrun hd⟩

/-- C80, with workers: from every state in which no block has failed for good, the server can still finish all
blocks. -/
theorem C80_server_can_finish (hcfg : cfg.served = r.map TTree.id)
    {ks : List (Server.Tick (Block d) Nat S)} {σ : Server (Block d) Nat (Nat × Int) S} (s : S)
    (hrun : SRun p.view cfg ks σ) (hf : ∀ n, ¬ Dead p.view (evs σ.out) n) :
    ∃ ks' σ', SSteps p.view cfg σ ks' σ' ∧ σ'.stop = true ∧ ∀ x b, p.BlockOf x b → Done (evs σ'.out) b := by
  have he : OrphanSafe p.view (evs σ.out) := safe_of_one (fun n _ f f' hd _ _ _ => absurd hd (hf f))
  have : Nonempty (Block d) := ⟨Block.new ⟨Vec.const d 0, Vec.const d 0⟩ ⟨Vec.const d 0, Vec.const d 0⟩
    ⟨Vec.const d 0, Vec.const d 0⟩ 0⟩
  obtain ⟨ks', σ', h1, h2, h3⟩ := C70_can_finish_partial (hb.ok h)
    (fun n hn => hcfg ▸ hb.served h _ ((hb.ok h).task_mem n hn)) s hrun he
  refine ⟨ks', σ', h1, h2, fun x b hx => ?_⟩
  rcases h3 b (hb.mem_nodes h hx) with h4 | h4 | ⟨f, h4, _⟩
  · exact h4
  · exact absurd h4 (hf b)
  · exact absurd h4 (hf f)

/-- C81: if the queues of delayed requests are in an order in which upstream tasks come before
the tasks that require them, every fair execution of the server in which no block fails stops, with every
block completed and result `True`.  (`run_blockwise` produces the opposite order, see `C81_false`.) -/
theorem C81_upstream_first_partial (hcfg : cfg.served.Perm (r.map TTree.id))
    (ho : ∀ t, Required tasks t → ∀ s ∈ t.requires, cfg.served.idxOf s.id < cfg.served.idxOf t.id)
    {σ : Nat → Server (Block d) Nat (Nat × Int) S} {k : Nat → Server.Tick (Block d) Nat S}
    (hF : Forever p.view cfg σ k) (hfair : Fair p.view σ k) (hf : ∀ i n, .release n .failed ∉ (σ i).out) :
    ∃ i, (σ i).stop = true ∧ (∀ x b, p.BlockOf x b → Done (evs (σ i).out) b) ∧
      Server.result p.view (σ i) = true := by
  have hbt := built_of_init hb.init (hb.unique h)
  have hto : TaskOrder p.view (fun t => cfg.served.idxOf t) := by
    intro b hbm a ha
    obtain ⟨y, hy⟩ := hb.of_nodes h hbm
    have hup : p.Up a b := (edge_iff hbt.1 (hb.wf h) hy).1 ha
    have hyid : p.view.task b = y := blockOf_taskId hbt.1 (hb.wf h) hy
    obtain ⟨x, hx, hxa⟩ := up_blockOf hbt.1 (hb.wf h) hy hup
    have hxid : p.view.task a = x := blockOf_taskId hbt.1 (hb.wf h) hxa
    rw [hxid, hyid]
    rcases hx with rfl | hx
    · exact Or.inl rfl
    · right
      obtain ⟨g, _, hg, _⟩ := id hy
      obtain ⟨t, t1, t2, _, _⟩ := graphs_init hb.init hg
      rw [hbt.2, ← t2, C54_upstream r (hb.unique h) t1] at hx
      obtain ⟨u, hu, rfl⟩ := hx
      rw [← t2]
      exact ho t ((flatten_required h.unique hb.flat t).1 t1) u hu
  have hpw : cfg.served.Pairwise (fun a b => cfg.served.idxOf a ≤ cfg.served.idxOf b) := by
    have hnd : cfg.served.Nodup := by
      obtain ⟨r', h1, h2, _⟩ := C40_flatten tasks
      rw [hb.flat] at h1; cases h1
      exact hcfg.nodup_iff.2 h2
    rw [List.pairwise_iff_getElem]
    intro i j hi hj hij
    rw [hnd.idxOf_getElem, hnd.idxOf_getElem]
    exact le_of_lt hij
  obtain ⟨i, h1, h2⟩ := C71_no_failures_partial (hb.ok h) hto hpw
    (fun n hn => hcfg.mem_iff.2 (hb.served h _ ((hb.ok h).task_mem n hn))) hF hfair hf
  obtain ⟨ks, hr⟩ := hF.run i
  exact ⟨i, h1, fun x b hx => h2 b (hb.mem_nodes h hx), C41_all_done (hb.ok h) hr h2⟩

/-- C81: in particular if no task has upstream tasks, for `run_blockwise` as it is. -/
theorem C81_no_links_partial (hcfg : cfg.served = r.map TTree.id) (hn : ∀ t ∈ tasks, t.requires = [])
    {σ : Nat → Server (Block d) Nat (Nat × Int) S} {k : Nat → Server.Tick (Block d) Nat S}
    (hF : Forever p.view cfg σ k) (hfair : Fair p.view σ k) (hf : ∀ i n, .release n .failed ∉ (σ i).out) :
    ∃ i, (σ i).stop = true ∧ (∀ x b, p.BlockOf x b → Done (evs (σ i).out) b) ∧
      Server.result p.view (σ i) = true := by
  refine C81_upstream_first_partial h hb (by rw [hcfg]) (fun t ht s hs => ?_) hF hfair hf
  exfalso
  obtain ⟨t0, ht0, hnd⟩ := ht
  have : t = t0 := by
    rcases Relation.ReflTransGen.cases_head hnd with e | ⟨c, hc, _⟩
    · exact e.symm
    · rw [hn t0 ht0] at hc; cases hc
  subst this
  rw [hn t ht0] at hs
  cases hs

end server

end Verif.Props

namespace Verif

open Spec Pipeline Props

/-! ### Examples -/

theorem plainTasks_of {d : Nat} {tasks L : List (Task d)} (h1 : ∀ t ∈ tasks, t ∈ L)
    (h2 : ∀ t ∈ L, ∀ u ∈ t.requires, u ∈ L) (h3 : ∀ s ∈ L, ∀ s' ∈ L, s.id = s'.id → s = s')
    (h4 : ∀ t ∈ L, t.info.Plain) (h5 : ∀ t ∈ L, t.requires ≠ [] → t.info.Symmetric)
    (h6 : ∀ t ∈ L, t.requires ≠ [] → ∃ u ∈ t.requires, Within t.info.writes u.info.writes ∧
      (u.info.fit ≠ .valid ∨ u.info.Divides)) : PlainTasks tasks :=
  ⟨uniqueIds_of h1 h2 h3, fun t ht => h4 t (required_mem h1 h2 ht),
    fun t ht => h5 t (required_mem h1 h2 ht), fun t ht => h6 t (required_mem h1 h2 ht)⟩

theorem within_of {d : Nat} {r s : Roi d} (h : ∀ i, s.offset.get i ≤ r.offset.get i ∧
    r.offset.get i + r.shape.get i ≤ s.offset.get i + s.shape.get i) : Within r s := by
  intro v hv i
  have h1 := h i
  have h2 := hv i
  omega

namespace Ex

/-- Writes `[0,7)` in blocks of 2, the last one is smaller. -/
def shrA : Task 1 := task1 0 (r1 0 7) (r1 0 2) (r1 0 2) false .shrink []
/-- Reads `[0,7)`, writes `[1,6)` in blocks of 2 with context 1, the last one is smaller. -/
def shrB : Task 1 := task1 1 (r1 0 7) (r1 0 4) (r1 1 3) true .shrink [shrA]

theorem shr_plain : PlainTasks [shrB] := by
  refine plainTasks_of (L := [shrA, shrB]) (by simp) (by simp [shrA, shrB, task1, TTree.requires])
    (by simp [shrA, shrB, task1, TTree.id]) ?_ ?_ ?_
  · intro t ht
    simp only [List.mem_cons, List.not_mem_nil, or_false] at ht
    rcases ht with rfl | rfl
    · exact ⟨by decide, by decide, by decide, by decide, Or.inl (by decide), by decide⟩
    · exact ⟨by decide, by decide, by decide, by decide, Or.inl (by decide), by decide⟩
  · intro t ht hr
    simp only [List.mem_cons, List.not_mem_nil, or_false] at ht
    rcases ht with rfl | rfl
    · exact absurd rfl hr
    · unfold TaskInfo.Symmetric; decide
  · intro t ht hr
    simp only [List.mem_cons, List.not_mem_nil, or_false] at ht
    rcases ht with rfl | rfl
    · exact absurd rfl hr
    · exact ⟨shrA, List.mem_singleton.2 rfl, within_of (by decide), Or.inl (by decide)⟩

/-- Three stages, two blocks each, without context. -/
def stage2 : Task 1 := task1 2 (r1 0 2) (r1 0 1) (r1 0 1) false .valid []
def stage1 : Task 1 := task1 1 (r1 0 2) (r1 0 1) (r1 0 1) false .valid [stage2]
def stage0 : Task 1 := task1 0 (r1 0 2) (r1 0 1) (r1 0 1) false .valid [stage1]

theorem stage_plain : PlainTasks [stage0] := by
  refine plainTasks_of (L := [stage2, stage1, stage0]) (by simp)
    (by simp [stage2, stage1, stage0, task1, TTree.requires])
    (by simp [stage2, stage1, stage0, task1, TTree.id]) ?_ ?_ ?_
  · intro t ht
    simp only [List.mem_cons, List.not_mem_nil, or_false] at ht
    rcases ht with rfl | rfl | rfl <;>
      exact ⟨by decide, by decide, by decide, by decide, Or.inl (by decide), by decide⟩
  · intro t ht hr
    simp only [List.mem_cons, List.not_mem_nil, or_false] at ht
    rcases ht with rfl | rfl | rfl <;> (unfold TaskInfo.Symmetric; decide)
  · intro t ht hr
    simp only [List.mem_cons, List.not_mem_nil, or_false] at ht
    rcases ht with rfl | rfl | rfl
    · exact absurd rfl hr
    · exact ⟨stage2, List.mem_singleton.2 rfl, within_of (by decide),
        Or.inr (by unfold TaskInfo.Divides; decide)⟩
    · exact ⟨stage1, List.mem_singleton.2 rfl, within_of (by decide),
        Or.inr (by unfold TaskInfo.Divides; decide)⟩

theorem stage_builds : Builds [stage0] [stage0, stage1, stage2] (pipe [stage0, stage1, stage2]) :=
  ⟨by rfl, by rfl, by rfl⟩

end Ex

/-- A serial run of the second example, with its 4 and 3 blocks. -/
example : ∃ r p, Builds [Ex.shrB] r p ∧ ∃ m σ, SerRun p.view (r.map TTree.id)
    ((List.range m).map (fun _ => serTick (anyPick (Ex.blk1 0 0 2 0 2 0)))) σ ∧ σ.ended = true := by
  obtain ⟨r, p, hb⟩ := C80_builds Ex.shr_plain
  obtain ⟨m, σ, _, h1, h2⟩ := C80_serial_returns Ex.shr_plain hb
    (fun _ => serTick (anyPick (Ex.blk1 0 0 2 0 2 0))) (fun _ => anyPick_legal _)
    (fun _ n => by simp [serTick])
  exact ⟨r, p, hb, m, σ, h1, h2⟩

end Verif
