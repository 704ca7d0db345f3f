import Verif.Proofs.ServerProgress
import Verif.Props.ServerStop
import Verif.Props.PipelineRun

/-! # Workers for ready tasks and delayed requests: C53, C55 -/

namespace Verif

open Spec

variable {N T K S : Type} [DecidableEq N] [DecidableEq T] [DecidableEq K] [DecidableEq S]
  {g : DGraph N T K} {cfg : SConf T} {σ σ' : Server N T K S} {ks : List (Server.Tick N T S)}

/-! ### C53 -/

/-- C53, partial.  The full claim has no `OrphanExact` hypothesis and is false (`C53_false`): when no block is
in flight, a task with a ready block has had its workers recruited, or some task that has workers has a
ready block. -/
theorem C53_recruited_partial (hg : g.OK) {trank : T → Nat} (ho : TaskOrder g trank)
    (h : SRun g cfg ks σ) (hx : OrphanExact g (evs σ.out)) (hn : ∀ n, holder σ.out n = none) {n : N}
    (hr : Ready g (evs σ.out) n) :
    Recruited σ (g.task n) ∨ ∃ m, Ready g (evs σ.out) m ∧ Recruited σ (g.task m) := by
  have hs := h.recruited hg
  rcases h.staffed hg ho hx hn n hr with h1 | ⟨m, m1, m2, _⟩
  · exact Or.inl ((hs _).1 h1)
  · exact Or.inr ⟨m, m1, (hs _).1 m2⟩

/-- C53 for the dependency graphs of pipelines (see `C15_pipeline` for the hypotheses). -/
theorem C53_pipeline_partial {d : Nat} {tasks : List (Task d)} {p : Pipeline d}
    (hp : Pipeline.init tasks = .ok p) (hid : UniqueIds tasks) (hw : p.Wf) (hr : p.RootLevels)
    (hl : p.Linked) (hf : p.Fed) {cfg : SConf Nat} {ks : List (Server.Tick (Block d) Nat S)}
    {σ : Server (Block d) Nat (Nat × Int) S} (h : SRun p.view cfg ks σ)
    (hx : OrphanExact p.view (evs σ.out)) (hn : ∀ n, holder σ.out n = none) {b : Block d}
    (hb : Ready p.view (evs σ.out) b) :
    Recruited σ b.taskId ∨ ∃ a, Ready p.view (evs σ.out) a ∧ Recruited σ a.taskId := by
  have hbt := (Pipeline.built_of_init hp hid).1
  obtain ⟨_, ho⟩ := view_taskOrder hbt hw hl
  exact C53_recruited_partial (Pipeline.dgraph_OK hbt hw hr hl hf) ho h hx hn hb

/-- C53 in full as long as no check function accepts a block: every task with a ready block has had its
workers recruited, also while blocks are in flight.  Also for graphs in which blocks of dependent tasks lack upstream
blocks, unless it is such a block. -/
theorem C53_loose_no_skips (hg : g.Loose) (h : SRun g cfg ks σ) (hs : ∀ n, .skip n ∉ σ.out) {n : N}
    (hr : Ready g (evs σ.out) n) (hn : ¬ Starved g n) : Recruited σ (g.task n) :=
  (h.recruited hg _).1 (h.staffed_no_skips hg hs n hr hn)

theorem C53_no_skips (hg : g.OK) (h : SRun g cfg ks σ) (hs : ∀ n, .skip n ∉ σ.out) {n : N}
    (hr : Ready g (evs σ.out) n) : Recruited σ (g.task n) :=
  C53_loose_no_skips hg h hs hr (not_starved hg n)

namespace Ex

/-- Two tasks: `0` and `1` in task 0, `2` and `3` in task 1, `2` downstream of `0`, `3` of `1`. -/
def two : DGraph (Fin 4) (Fin 2) (Fin 4) :=
  finGraph 4 2 (fun n => match n with | 2 => [0] | 3 => [1] | _ => [])
    (fun n => if n < 2 then 0 else 1) (fun _ => 0) [0]

theorem two_ok : two.OK := finGraph_ok (by decide) (by decide) (by decide) (by decide)

theorem two_order : TaskOrder two (fun t => t.val) := by
  unfold TaskOrder; decide

def two_conf : SConf (Fin 2) := ⟨[1, 0], fun _ => none⟩

end Ex

/-- Block 0 is skipped, block 1 is handed out and succeeds: nothing is in flight, block 2 is ready. -/
example : ∃ (σ : Server (Fin 4) (Fin 2) (Fin 4) Nat) (ks : List (Server.Tick (Fin 4) (Fin 2) Nat)),
    Ex.two.OK ∧ TaskOrder Ex.two (fun t => t.val) ∧ SRun Ex.two Ex.two_conf ks σ ∧
    OrphanExact Ex.two (evs σ.out) ∧ (∀ n, holder σ.out n = none) ∧ .skip 0 ∈ σ.out ∧
    Ready Ex.two (evs σ.out) 2 := by
  have hx : (sexec Ex.two Ex.two_conf [tick pickMin (acq 0 7) [0], tick pickMin (ret 1 7)]).map
      (fun σ => decide ((∀ n, holder σ.out n = none) ∧ .skip 0 ∈ σ.out ∧ Ready Ex.two (evs σ.out) 2)) =
      some true := by decide +kernel
  obtain ⟨σ, h, e⟩ := sexec_run (S := Nat) (by
    intro k hk
    simp only [List.mem_cons, List.not_mem_nil, or_false] at hk
    rcases hk with rfl | rfl <;> exact ⟨pickMin_legal, fun _ => pickMin_legal⟩) _ hx
  obtain ⟨e1, e2, e3⟩ := of_decide_eq_true e
  exact ⟨σ, _, Ex.two_ok, Ex.two_order, h, exact_of_two (by decide), e1, e2, e3⟩

namespace Ex

/-- `Ex.fan` with another block `5` downstream of `3`, and a second task with the block `6`, downstream of
`5`. -/
def fan2 : DGraph (Fin 7) (Fin 2) (Fin 7) :=
  finGraph 7 2 (fun n => match n with | 3 => [0] | 4 => [0, 1, 2] | 5 => [3] | 6 => [5] | _ => [])
    (fun n => if n = 6 then 1 else 0) (fun _ => 0) [0]

theorem fan2_ok : fan2.OK := finGraph_ok (by decide) (by decide) (by decide) (by decide)

theorem fan2_order : TaskOrder fan2 (fun t => t.val) := by
  unfold TaskOrder; decide

def fan2Conf : SConf (Fin 2) := ⟨[1, 0], fun _ => none⟩

/-- As in `C34_false`, an orphan is counted twice; then the check function accepts block `5`. -/
def fan2Serve : List (Server.Tick (Fin 7) (Fin 2) Nat) :=
  ticks [acq 0 10, acq 0 11, acq 0 12, ret 0 10, bad 1 11, acq 0 10, ret 3 10, bad 2 12] ++
    [tick pickMin (acq 0 10) [5]]

end Ex

/-- C53 is false in general: in this run an orphan is counted twice, so task 0 seems to have blocks to wait
for when it has none; its last block is skipped, which makes block `6` of task 1 ready, but no workers are
recruited for task 1, nothing is in flight, and no task with workers has a ready block. -/
theorem C53_false : ∃ (g : DGraph (Fin 7) (Fin 2) (Fin 7)) (cfg : SConf (Fin 2))
    (ks : List (Server.Tick (Fin 7) (Fin 2) Nat)) (σ : Server (Fin 7) (Fin 2) (Fin 7) Nat),
    g.OK ∧ TaskOrder g (fun t => t.val) ∧ SRun g cfg ks σ ∧ (∀ n, holder σ.out n = none) ∧
    Ready g (evs σ.out) 6 ∧ g.task 6 = 1 ∧ σ.stop = false ∧
    ∀ n, Ready g (evs σ.out) n → ¬ Recruited σ (g.task n) := by
  have hx : (sexec Ex.fan2 Ex.fan2Conf Ex.fan2Serve).map (fun σ => decide (
      (∀ n, holder σ.out n = none) ∧ Ready Ex.fan2 (evs σ.out) 6 ∧ σ.stop = false ∧ σ.started = [0] ∧
      ∀ n, Ready Ex.fan2 (evs σ.out) n → n = 6)) = some true := by decide +kernel
  obtain ⟨σ, h, e⟩ := sexec_run (S := Nat) (by
    intro k hk
    rcases List.mem_append.1 hk with hk | hk
    · exact ticks_legal _ k hk
    · rw [List.mem_singleton.1 hk]
      exact ⟨pickMin_legal, fun _ => pickMin_legal⟩) _ hx
  obtain ⟨e1, e2, e3, e4, e5⟩ := of_decide_eq_true e
  refine ⟨Ex.fan2, _, _, σ, Ex.fan2_ok, Ex.fan2_order, h, e1, e2, rfl, e3, ?_⟩
  intro n hn hc
  rw [e5 n hn] at hc
  have := (h.recruited Ex.fan2_ok _).2 hc
  rw [e4] at this
  exact absurd this (by decide)

/-! ### C55 -/

/-- How `_get_client_message` gets stuck: suppose nothing is in flight, and the first task in the order of
`pending_requests` with a delayed request has no ready block, or only blocks that lack upstream blocks, but has blocks
that are not finished.  Then
as long as no client sends anything, no request at all is answered and nothing else happens, whatever
other tasks with delayed requests have ready blocks. -/
theorem C27_stuck (hg : g.Loose) (h : SRun g cfg ks σ) (hx : OrphanExact g (evs σ.out))
    (hn : ∀ n, holder σ.out n = none) (hs : σ.stop = false) {pre post : List T} {t : T}
    (hserved : cfg.served = pre ++ t :: post) (hpre : ∀ x ∈ pre, σ.pending x = []) (hpt : σ.pending t ≠ [])
    (hnr : ∀ n, g.task n = t → Ready g (evs σ.out) n → Starved g n) {n : N} (hnn : n ∈ g.nodes) (hnt : g.task n = t)
    (h1 : ¬ Done (evs σ.out) n) (h2 : ¬ Dead g (evs σ.out) n) (h3 : ¬ Orphan g (evs σ.out) n)
    {ks' : List (Server.Tick N T S)} (hidle : ∀ k ∈ ks', k.recv = .nothing) (h' : SSteps g cfg σ ks' σ') :
    evs σ'.out = evs σ.out ∧ σ'.stop = false ∧ (∀ x s, answers g x s σ'.out = answers g x s σ.out) ∧
    ∀ x, (σ'.pending x).Perm (σ.pending x) := by
  induction h' with
  | nil => exact ⟨rfl, hs, fun _ _ => rfl, fun _ => List.Perm.refl _⟩
  | @step ks1 σ₁ σ₂ k hst _ hk he ih =>
    obtain ⟨i1, i2, i3, i4⟩ := ih (fun k hk => hidle k (List.mem_append_left _ hk))
    have hI := (h.steps hst).inv hg
    have hI0 := h.inv hg
    have hn1 : ∀ n, holder σ₁.out n = none := by
      intro n
      by_contra hc
      have := (hI.held n).2 hc
      rw [i1] at this
      exact (hI0.held n).1 this (hn n)
    have hpt1 : σ₁.pending t ≠ [] := fun e => hpt (by have := i4 t; rw [e] at this; exact this.nil_eq.symm)
    have hf : firstWaiting cfg σ₁ = some t := by
      unfold firstWaiting
      rw [hserved, List.find?_append]
      have e1 : pre.find? (fun t => (σ₁.pending t).length ≠ 0) = none := by
        rw [List.find?_eq_none]
        intro x hx
        have := (i4 x).length_eq
        rw [hpre x hx] at this
        simp [this]
      rw [e1]
      simp [hpt1]
    obtain ⟨s, rest, hsr⟩ := List.exists_cons_of_ne_nil hpt1
    rw [← i1] at hx hnr h1 h2 h3
    obtain ⟨σ3, a1, a2, a3, a4, a5⟩ := idle_iteration (cfg := cfg) hg hI hn1
      (hidle k (List.mem_append_right _ List.mem_cons_self)) hf hsr hnr hnn hnt hx h1 h2 h3
    rw [a1] at he
    cases he
    refine ⟨a2.trans i1, a4 i2, fun x s => (a5 x s).trans (i3 x s), ?_⟩
    intro x
    rw [a3]
    by_cases hxt : x = t
    · subst hxt
      rw [upd_eq]
      refine List.Perm.trans ?_ (i4 x)
      rw [hsr]
      exact List.perm_append_singleton s rest
    · simp only [upd, hxt, if_false]
      exact i4 x

/-- C55: the same for graphs without starved blocks. -/
theorem C55_stuck (hg : g.OK) (h : SRun g cfg ks σ) (hx : OrphanExact g (evs σ.out))
    (hn : ∀ n, holder σ.out n = none) (hs : σ.stop = false) {pre post : List T} {t : T}
    (hserved : cfg.served = pre ++ t :: post) (hpre : ∀ x ∈ pre, σ.pending x = []) (hpt : σ.pending t ≠ [])
    (hnr : ∀ n, g.task n = t → ¬ Ready g (evs σ.out) n) {n : N} (hnn : n ∈ g.nodes) (hnt : g.task n = t)
    (h1 : ¬ Done (evs σ.out) n) (h2 : ¬ Dead g (evs σ.out) n) (h3 : ¬ Orphan g (evs σ.out) n)
    {ks' : List (Server.Tick N T S)} (hidle : ∀ k ∈ ks', k.recv = .nothing) (h' : SSteps g cfg σ ks' σ') :
    evs σ'.out = evs σ.out ∧ σ'.stop = false ∧ (∀ x s, answers g x s σ'.out = answers g x s σ.out) ∧
    ∀ x, (σ'.pending x).Perm (σ.pending x) :=
  C27_stuck hg h hx hn hs hserved hpre hpt (fun n h1 h2 => absurd h2 (hnr n h1)) hnn hnt h1 h2 h3 hidle h'

namespace Ex

/-- Three tasks with two blocks each, task 0 downstream of task 1 downstream of task 2: the blocks `4`, `5`
of task 0 need `2`, `3` of task 1, which need `0`, `1` of task 2. -/
def three : DGraph (Fin 6) (Fin 3) (Fin 6) :=
  finGraph 6 3 (fun n => match n with | 2 => [0] | 3 => [1] | 4 => [2] | 5 => [3] | _ => [])
    (fun n => if n < 2 then 2 else if n < 4 then 1 else 0) (fun _ => 0) [2]

theorem three_ok : three.OK := finGraph_ok (by decide) (by decide) (by decide) (by decide)

/-- The order in which `run_blockwise([task])` lists the tasks (`C40`): downstream tasks first. -/
def threeConf : SConf (Fin 3) := ⟨[0, 1, 2], fun _ => none⟩

/-- The same with upstream tasks first. -/
def threeConf' : SConf (Fin 3) := ⟨[2, 1, 0], fun _ => none⟩

/-- One worker per task; workers 10 (of task 0) and 11 (of task 1) wait when worker 12 returns the last
block of task 2 and is told to shut down. -/
def threeServe : List (Server.Tick (Fin 6) (Fin 3) Nat) :=
  ticks [acq 2 12, ret 0 12, acq 1 11, acq 2 12, ret 2 11, acq 0 10, acq 1 11, ret 4 10, acq 0 10, ret 1 12,
    acq 2 12]

end Ex

/-- C55 is false: in this run nothing is in flight, block `3` of task 1 is ready, and worker 11 waits for a
block of task 1; but as long as no other message arrives (all workers that were recruited wait or have
been told to shut down), it gets no answer, and the server never stops. -/
theorem C55_false : ∃ (g : DGraph (Fin 6) (Fin 3) (Fin 6)) (cfg : SConf (Fin 3))
    (ks : List (Server.Tick (Fin 6) (Fin 3) Nat)) (σ : Server (Fin 6) (Fin 3) (Fin 6) Nat),
    g.OK ∧ SRun g cfg ks σ ∧ (∀ n, holder σ.out n = none) ∧ Ready g (evs σ.out) 3 ∧ g.task 3 = 1 ∧
    σ.pending = (fun t => if t = 0 then [10] else if t = 1 then [11] else []) ∧
    .shutdown 12 2 ∈ σ.out ∧ (∀ n, ¬ Dead g (evs σ.out) n) ∧
    ∀ ks' σ', (∀ k ∈ ks', k.recv = .nothing) → SSteps g cfg σ ks' σ' →
      σ'.stop = false ∧ evs σ'.out = evs σ.out ∧ ∀ t s, answers g t s σ'.out = answers g t s σ.out := by
  have hx : (sexec Ex.three Ex.threeConf Ex.threeServe).map (fun σ => decide (
      (∀ n, holder σ.out n = none) ∧ Ready Ex.three (evs σ.out) 3 ∧
      (∀ t, σ.pending t = if t = 0 then [10] else if t = 1 then [11] else []) ∧
      .shutdown 12 2 ∈ σ.out ∧ (∀ n, ¬ Dead Ex.three (evs σ.out) n) ∧ σ.stop = false ∧
      (∀ n, Ex.three.task n = 0 → ¬ Ready Ex.three (evs σ.out) n) ∧ ¬ Done (evs σ.out) 5)) = some true := by
    decide +kernel
  obtain ⟨σ, h, e⟩ := sexec_run (S := Nat) (ticks_legal _) _ hx
  obtain ⟨e1, e2, e3, e4, e5, e6, e7, e8⟩ := of_decide_eq_true e
  refine ⟨Ex.three, _, _, σ, Ex.three_ok, h, e1, e2, rfl, funext e3, e4, e5, ?_⟩
  intro ks' σ' hidle h'
  have := C55_stuck Ex.three_ok h (exact_of_two (by decide)) e1 e6 (pre := []) (t := 0) rfl (by simp)
    (by rw [e3]; decide) e7 (n := 5) (by decide) rfl e8 (e5 5) (fun ⟨f, hf, _⟩ => e5 f hf) hidle h'
  exact ⟨this.2.1, this.1, this.2.2.1⟩

/-- C55, partial.  The full claim has no hypothesis on the order of the tasks and is false (`C55_false`): if
`pending_requests` lists upstream tasks before downstream tasks, and every task with a ready block has a
delayed request, then as long as nothing is in flight and some block is ready, an iteration without
messages hands out or skips a block or answers a request. -/
theorem C55_progress_partial (hg : g.OK) (h : SRun g cfg ks σ) (hx : OrphanExact g (evs σ.out))
    {trank : T → Nat} (ho : TaskOrder g trank)
    (hserved : cfg.served.Pairwise (fun a b => trank a ≤ trank b))
    (hn : ∀ n, holder σ.out n = none)
    (hreq : ∀ n, Ready g (evs σ.out) n → g.task n ∈ cfg.served ∧ σ.pending (g.task n) ≠ [])
    {n : N} (hr : Ready g (evs σ.out) n) {k : Server.Tick N T S} (hk : k.recv = .nothing)
    (hgk : GoodTick g cfg k) (he : σ.iteration g cfg k = .ok σ') :
    (evs σ.out).length < (evs σ'.out).length ∨
      ∃ t s, answers g t s σ.out < answers g t s σ'.out := by
  have hI := h.inv hg
  -- the first task with a delayed request
  obtain ⟨t, hf⟩ : ∃ t, cfg.served.find? (fun t => (σ.pending t).length ≠ 0) = some t := by
    rw [← Option.isSome_iff_exists, List.find?_isSome]
    obtain ⟨h1, h2⟩ := hreq n hr
    exact ⟨_, h1, by simpa using h2⟩
  have htm := List.mem_of_find?_eq_some hf
  have htp : σ.pending t ≠ [] := by
    have := List.find?_some hf
    simpa using this
  obtain ⟨s, rest, hsr⟩ := List.exists_cons_of_ne_nil htp
  have hI1 := hI.pending (upd σ.pending t rest)
  obtain ⟨σ1, skips, r, a1, a2, a3, a4⟩ := handleAcquire_spec (cfg := cfg) hg hI1 k.chk k.now s htm
  have hfr := checkAll_frame (g := g) σ1
  have hI2 : SInv g (σ1.checkAll g) := a2.frame hfr
  obtain ⟨σ2, os, L, c1, c2, _, _, c3, _⟩ := checkLost_ok hg hI2 hgk.2.2 k.closed k.clock
  have hmsg : σ.handleMessages g cfg k.chk k.pick k.now k.recv = .ok (σ1.checkAll g) := by
    rw [hk]
    unfold Server.handleMessages
    simp only
    rw [hf]
    simp only
    rw [hsr]
    simp only [Server.handle, a1]
  unfold Server.iteration at he
  rw [hmsg] at he
  simp only at he
  rw [c1] at he
  cases he
  -- the log only grows after the request was handled
  obtain ⟨os', hout⟩ : ∃ os', (if k.late then σ2.checkAll g else σ2).out = σ1.out ++ os' := by
    obtain ⟨o1, e1, _⟩ := hfr.out
    split
    · obtain ⟨o2, e2, _⟩ := (checkAll_frame (g := g) σ2).out
      exact ⟨o1 ++ os ++ o2, by rw [e2, c3, e1]; simp⟩
    · exact ⟨o1 ++ os, by rw [c3, e1]; simp⟩
  rw [hout]
  have hout1 : ∃ o3, σ1.out = σ.out ++ skips.map .skip ++ o3 ∧ (r ≠ none → evs o3 ≠ []) ∧
      (r = none → (σ1.sched.states t).pending = 0 → answers g t s o3 = 1) := by
    rcases r with _ | m
    · simp only at a4
      obtain ⟨_, a4⟩ := a4
      split at a4
      · rename_i hp0
        have e := a4.2
        obtain ⟨o4, e4, h4⟩ := (recruit_frame (g := g) ({ σ with
          pending := upd σ.pending t rest, sched := σ1.sched,
          out := σ.out ++ skips.map .skip ++ [.shutdown s t] } : Server N T K S)).out
        refine ⟨[.shutdown s t] ++ o4, ?_, fun hc => absurd rfl hc, ?_⟩
        · rw [e, e4]; simp
        · intro _ _
          rw [answers_append, answers_silent h4]
          simp [answers]
      · rename_i hp0
        exact ⟨[], by rw [a4.2.1]; simp, fun hc => absurd rfl hc, fun _ hc => absurd hc hp0⟩
    · simp only at a4
      exact ⟨_, a4.1, fun _ => by simp [evs, toEv], fun hc => by cases hc⟩
  obtain ⟨o3, ho3, ho4, ho5⟩ := hout1
  by_cases hprog : skips ≠ [] ∨ r ≠ none
  · left
    rw [ho3, evs_append, evs_append, evs_append, evs_skips]
    simp only [List.length_append, List.length_map]
    rcases hprog with hp | hp
    · have := List.length_pos_iff.2 hp
      omega
    · have := List.length_pos_iff.2 (ho4 hp)
      omega
  · rw [not_or, not_not, not_not] at hprog
    obtain ⟨rfl, rfl⟩ := hprog
    right
    have hnr : ∀ n, g.task n = t → ¬ Ready g (evs σ.out) n := by
      have := (skips_task hg hI1.run a3).2.1 rfl
      simpa using this
    have hrun : Run g (evs σ.out) σ1.sched := by
      have := Run.acquire k.chk t hI1.run a3
      simpa [acquireEvents] using this
    have hheld : ∀ n, ¬ Held (evs σ.out) n := fun n hc => (hI.held n).1 hc (hn n)
    have hp0 : (σ1.sched.states t).pending = 0 := by
      rw [C22_pending_partial hg hrun hx t, cnt_eq_zero]
      rintro w hw hwt ⟨hwf, hwr, _⟩
      rw [not_or, not_or] at hwf
      obtain ⟨a, ha1, ha2⟩ := ready_ancestor hg hheld hw hwf.1 hwf.2.1 hwf.2.2 hwr
      obtain ⟨q1, q2⟩ := hreq a ha2
      have hne : g.task a ≠ t := fun e => hnr a e ha2
      have hlt : trank (g.task a) < trank t := by
        rcases (TaskOrder.anc hg ho hw ha1).2 with e | e
        · exact absurd (e.trans hwt) hne
        · rw [← hwt]; exact e
      obtain ⟨_, pre, post, hspl, hpre⟩ := List.find?_eq_some_iff_append.1 hf
      rw [hspl] at q1 hserved
      rcases List.mem_append.1 q1 with q | q
      · have := hpre _ q
        simp at this
        exact q2 this
      · rcases List.mem_cons.1 q with q | q
        · exact hne q
        · have := (List.pairwise_cons.1 (List.pairwise_append.1 hserved).2.1).1 _ q
          omega
    refine ⟨t, s, ?_⟩
    rw [ho3, answers_append, answers_append, answers_append, ho5 rfl hp0]
    omega

/-- The situation of `C55_false` with the tasks listed the other way. -/
example : ∃ (σ : Server (Fin 6) (Fin 3) (Fin 6) Nat) (ks : List (Server.Tick (Fin 6) (Fin 3) Nat)),
    Ex.three.OK ∧ SRun Ex.three Ex.threeConf' ks σ ∧ OrphanExact Ex.three (evs σ.out) ∧
    TaskOrder Ex.three (fun t => 2 - t.val) ∧
    Ex.threeConf'.served.Pairwise (fun a b => 2 - a.val ≤ 2 - b.val) ∧ (∀ n, holder σ.out n = none) ∧
    (∀ n, Ready Ex.three (evs σ.out) n → Ex.three.task n ∈ Ex.threeConf'.served ∧
      σ.pending (Ex.three.task n) ≠ []) ∧ Ready Ex.three (evs σ.out) 3 := by
  have hx : (sexec Ex.three Ex.threeConf' Ex.threeServe).map (fun σ => decide (
      (∀ n, holder σ.out n = none) ∧ (∀ n, Ready Ex.three (evs σ.out) n →
        Ex.three.task n ∈ Ex.threeConf'.served ∧ σ.pending (Ex.three.task n) ≠ []) ∧
      Ready Ex.three (evs σ.out) 3)) = some true := by
    decide +kernel
  obtain ⟨σ, h, e⟩ := sexec_run (S := Nat) (ticks_legal _) _ hx
  obtain ⟨e1, e2, e3⟩ := of_decide_eq_true e
  exact ⟨σ, _, Ex.three_ok, h, exact_of_two (by decide), by unfold TaskOrder; decide, by decide, e1, e2, e3⟩

end Verif
