import Verif.Props.ServerThreads
import Verif.Spec.ServerReuse

/-! # C118: using a server again -/

set_option linter.unusedSectionVars false

namespace Verif

open Spec FineSrv

variable {N T K S : Type} [DecidableEq N] [DecidableEq T] [DecidableEq K] [DecidableEq S]
  {g : DGraph N T K} {cfg : SConf T} {ks : List (FineTick N T S)} {x₀ x x' : FineSrv N T K S} {k : FineTick N T S}

/-- **C118, full statement.**  After a run has ended and the stop event was cleared (C63), the same server works as a new one
with the same streams: the same happens if the IO loop does the same. -/
def C118_statement : Prop :=
  ∀ (N T K S : Type) [DecidableEq N] [DecidableEq T] [DecidableEq K] [DecidableEq S] (g₁ g₂ : DGraph N T K)
    (cfg₁ cfg₂ : SConf T), g₁.OK → g₂.OK → (∀ n ∈ g₁.nodes, g₁.task n ∈ cfg₁.served) →
    (∀ n ∈ g₂.nodes, g₂.task n ∈ cfg₂.served) →
    ∀ (ks : List (FineTick N T S)) (x : FineSrv N T K S) (conn : S → Bool) (io : List (SrvIo N T S)),
      FineRun g₁ cfg₁ ks x → x.srv.stop = true →
      ∀ ks' x', FineSteps g₂ cfg₂ (((x.clear.disconnect conn).ioRun io).again g₂) ks' x' →
      ∃ y, FineSteps g₂ cfg₂ { FineSrv.init g₂ with links := ((x.clear.disconnect conn).ioRun io).links } ks' y ∧
        y.srv = x'.srv

theorem init_not_done (hg : g.Loose) {t : T} (ht : t ∈ g.tasks) {n : N} (hn : n ∈ g.nodes) (h : g.task n = t) :
    ((Sched.init g).states t).isDone = false := by
  unfold Sched.init
  simp only
  obtain ⟨_, _, h3⟩ := Sched.init_totals (g := g) g.tasks (g.rootTasks.foldl (fun st t =>
    (st.modState t (fun s => { s with ready := s.ready + g.numRoots t })).modQueue t
      (fun _ => PQueue.init (g.numRoots t) (g.rootGen t)))
      (⟨RS.init, fun _ => TState.init, fun _ => PQueue.init 0 []⟩ : Sched N T K))
  rw [h3 t, if_pos ht, Sched.init_states _ _ hg.rootTasks_nodup]
  obtain ⟨l, _, h4, h5⟩ := hg.total_eq t ht
  have h6 : n ∈ l := (h4 n).2 ⟨hn, h⟩
  have h7 : 0 < l.length := List.length_pos_of_mem h6
  have h8 : ∀ s : TState, s.completed = 0 → s.failed = 0 → s.orphaned = 0 →
      ({ s with total := g.total t } : TState).isDone = false := by
    intro s a b c
    unfold TState.isDone
    rw [beq_eq_false_iff_ne]
    simp only [a, b, c, h5]
    omega
  split
  · exact h8 _ rfl rfl rfl
  · exact h8 _ rfl rfl rfl

theorem init_sched : (Server.init g : Server N T K S).sched = Sched.init g := (recruit_frame _).sched

theorem init_stop : (Server.init g : Server N T K S).stop = false := by
  unfold Server.init Server.recruit
  simp only [Server.emit]
  have : ∀ (l : List T) (σ : Server N T K S), (l.foldl (fun σ t =>
      if t ∈ σ.started then σ
      else { ({ σ with out := σ.out ++ [.taskStart t, .callback t] } : Server N T K S) with
        started := σ.started ++ [t] }) σ).stop = σ.stop := by
    intro l
    induction l with
    | nil => intro σ; rfl
    | cons t l ih =>
      intro σ
      rw [List.foldl_cons, ih]
      split <;> rfl
  exact this _ _

/-- C118: **a server whose run has ended does nothing in the next one**: the event loop is not entered, and not all tasks
are done if there is any block. -/
theorem C118_stopped {g₂ : DGraph N T K} {cfg₂ : SConf T} (h2 : g₂.OK) {n : N} (hn : n ∈ g₂.nodes)
    (hx : x.srv.stop = true) (conn : S → Bool) (io : List (SrvIo N T S))
    (h : FineSteps g₂ cfg₂ (((x.disconnect conn).ioRun io).again g₂) ks x') :
    ks = [] ∧ x'.srv.result g₂ = false := by
  have hs : (((x.disconnect conn).ioRun io).again g₂).srv.stop = true := by
    change (((x.disconnect conn).ioRun io).srv).stop = true
    rw [ioRun_srv]
    exact hx
  cases h with
  | nil =>
    refine ⟨rfl, ?_⟩
    unfold Server.result
    rw [List.all_eq_false]
    refine ⟨g₂.task n, h2.task_mem n hn, ?_⟩
    have : (((x.disconnect conn).ioRun io).again g₂).srv.sched = Sched.init g₂ := init_sched
    rw [this, init_not_done h2 (h2.task_mem n hn) hn rfl]
    decide
  | step k h hs' _ _ =>
    exfalso
    clear * - hs h hs'
    induction h with
    | nil => rw [hs] at hs'; cases hs'
    | step _ _ h1 _ _ ih => exact ih h1

theorem _root_.Verif.Spec.FineSteps.one (h : FineSteps g cfg x₀ [k] x) : x₀.iteration g cfg k = .ok x := by
  generalize hks : [k] = ks at h
  cases h with
  | nil => cases hks
  | step k' h hs hl he =>
    rename_i ks' y
    have h1 : ks' = [] ∧ k' = k := by
      cases ks' with
      | nil => exact ⟨rfl, (List.cons.inj hks).1.symm⟩
      | cons a l =>
        have := congrArg List.length hks
        simp at this
    obtain ⟨rfl, rfl⟩ := h1
    generalize hn : ([] : List (FineTick N T S)) = ks at h
    cases h with
    | nil => exact he
    | step _ _ _ _ _ => simp at hn

theorem again_inv : SInv g (x.again g).srv := ⟨⟨SInv.init.run, SInv.init.held⟩, SInv.init.nodup, SInv.init.entry, SInv.init.book⟩

/-- If messages that are left over are not about other blocks with the same ids, nothing goes wrong. -/
theorem Spec.FineSteps.inv (hg : g.Loose) (hserved : ∀ n ∈ g.nodes, g.task n ∈ cfg.served) (h0 : SInv g x₀.srv)
    (hq : ∀ p ∈ x₀.queue, Genuine g p.1) (h : FineSteps g cfg x₀ ks x) :
    SInv g x.srv ∧ ∀ p ∈ x.queue, Genuine g p.1 := by
  induction h with
  | nil => exact ⟨h0, hq⟩
  | step k h hs hk he ih =>
    obtain ⟨r, σ, p, σ', _, _, _, _, _, _, _, _, h1, _, _, _, _, h2, _⟩ := fine_ok hg hserved ih.1 ih.2 hk he
    refine ⟨h1, ?_⟩
    intro q hq
    rcases h2 q hq with h | h
    · exact ih.2 q h
    · exact hk.1 _ _ h

/-- C118: if the stop event was not set (the earlier run raised) or was cleared, then in the next run, whatever was left
over, the scheduler is used as it is meant to be, and the server knows who has which block. -/
theorem C118_order (hg : g.Loose) (hserved : ∀ n ∈ g.nodes, g.task n ∈ cfg.served) (hq : ∀ p ∈ x₀.queue, Genuine g p.1)
    (h : FineSteps g cfg (x₀.again g) ks x) :
    Run g (evs x.srv.out) x.srv.sched ∧ Legal g (evs x.srv.out) ∧
    (∀ n ∈ g.nodes, ∀ s, (∃ e ∈ x.srv.book, e.2.block = n ∧ e.2.stream = s) ↔ holder x.srv.out n = some s) :=
  order_of_inv hg (h.inv hg hserved again_inv hq).1

/-- C118: the next run is one that a new server can make with some clients, if the messages that are left over and those
that come are what they should be, and no client has two blocks. -/
theorem C118_srun_partial (hg : g.Loose) (hserved : ∀ n ∈ g.nodes, g.task n ∈ cfg.served) (hx : x₀.srv.stop = false)
    (hq : ∀ p ∈ x₀.queue, GoodMsg g cfg p.1) (h : FineSteps g cfg (x₀.again g) ks x)
    (hd : ∀ k ∈ ks, ∀ m s, Does k (.arrive m s) → GoodMsg g cfg m)
    (h1 : ∀ ks₁ k ks₂ y, ks = ks₁ ++ k :: ks₂ → FineSteps g cfg (x₀.again g) ks₁ y → Single g cfg y k) :
    ∃ ks', SRun g cfg ks' x.srv := by
  have hgq : ∀ p ∈ x₀.queue, Genuine g p.1 := fun p hp => good_genuine hg (hq p hp)
  suffices hs : (∃ ks', SRun g cfg ks' x.srv) ∧ ∀ p ∈ x.queue, GoodMsg g cfg p.1 from hs.1
  induction h with
  | nil =>
    refine ⟨⟨[], ?_⟩, hq⟩
    have : (x₀.again g).srv = Server.init g := by
      change ({ Server.init g with stop := x₀.srv.stop } : Server N T K S) = _
      rw [hx, ← init_stop (g := g) (N := N) (T := T) (K := K) (S := S)]
    rw [this]
    exact .init
  | step k h hs hk he ih =>
    rename_i ks y y'
    obtain ⟨⟨ks', hr⟩, iq⟩ := ih (fun k' hk' => hd k' (List.mem_append_left _ hk'))
      (fun ks₁ k' ks₂ z e hz => h1 ks₁ k' (ks₂ ++ [k]) z (by rw [e]; simp) hz)
    obtain ⟨i1, i2⟩ := h.inv hg hserved again_inv hgq
    obtain ⟨r, closed, a1, a2, _⟩ := fine_refines hg hserved i1 i2 hk he (h1 ks k [] y rfl h)
    constructor
    · refine ⟨_, .step _ hr hs ⟨?_, hk.2.1, hk.2.2⟩ a2⟩
      rintro m s rfl
      rcases gets_queue a1 with h | h
      · exact iq _ h
      · exact hd k (by simp) m s h
    · obtain ⟨r, σ, p, σ', _, _, _, _, _, _, _, _, _, _, _, _, _, h2, _⟩ := fine_ok hg hserved i1 i2 hk he
      intro q hq
      rcases h2 q hq with h | h
      · exact iq q h
      · exact hd k (by simp) _ _ h

/-- C118: **a request that is left over costs a block an attempt**: the block that is acquired for it is sent to a client
that is gone, and counts as failed at once. -/
theorem C118_leftover (hg : g.Loose) (hserved : ∀ n ∈ g.nodes, g.task n ∈ cfg.served) (hi : SInv g x.srv)
    (hq : ∀ p ∈ x.queue, Genuine g p.1) (hk : FineLegal g k) (he : x.iteration g cfg k = .ok x') {t : T} {s : S}
    {q : List (Msg N T × S)} (hexc : (x.ioRun k.io0).excs = []) (hmsg : x.queue = (.acquire t, s) :: q)
    (ht : t ∈ cfg.served) (hs : Shut (x.links s)) {skips : List N} {n : N} {st : Sched N T K}
    (ha : x.srv.sched.acquireBlock g k.chk t = .ok (skips, some n, st)) :
    ∃ os, x'.srv.out = x.srv.out ++ os ∧ .send s n ∈ os ∧ .release n .failed ∈ os := by
  obtain ⟨r, σ, p, σ', hr, h1, _, h2, _, _, h3, h4, _, _, _, _, h5, _⟩ := fine_ok hg hserved hi hq hk he
  have hget : Gets x k (.msg (.acquire t) s) := by
    refine ⟨hexc, ?_⟩
    obtain ⟨q', h, _⟩ := ioRun_queue (k.io0 ++ k.io1) x
    rw [h, hmsg]
    rfl
  have : r = .msg (.acquire t) s := gets_unique hr hget
  subst this
  obtain ⟨σ1, skips', r', b1, b2, b3, b4⟩ := handleAcquire_spec (σ := x.srv) hg hi k.chk k.now s ht
  rw [ha] at b3
  cases b3
  simp only at b4
  obtain ⟨b5, _, b6, b7, b8, _⟩ := b4
  have hσ : σ = σ1.checkAll g := by
    simp only [Server.handleMessages, Server.handle] at h1
    rw [b1] at h1
    simp only at h1
    cases h1
    rfl
  have hfr := checkAll_frame (g := g) σ1
  obtain ⟨os1, c1, c2⟩ := hfr.out
  have hh1 : holder σ1.out n = some s := by
    rw [b5]
    simp [holder, holderStep]
  have hh : holder σ.out n = some s := by
    rw [hσ, hfr.holder]
    exact hh1
  obtain ⟨σ'', _, d1, _, _, _, os2, d2, d3⟩ := lost_sub hg h2 hk.2.2 p
  rw [h4] at d1
  cases d1
  have hp : p (g.key n) = true := by
    have := h2.book n b7
    rw [hh, Option.map_eq_some_iff] at this
    obtain ⟨l, e1, e2⟩ := this
    refine (h5 _ (Book.get_mem e1)).2 ?_
    change Shut (((x.ioRun (k.io0 ++ k.io1)).links l.stream))
    rw [e2]
    exact shut_mono _ hs
  have hfin : ∃ os3, x'.srv.out = σ'.out ++ os3 := by
    rw [h3]
    split
    · obtain ⟨os, h, _⟩ := (checkAll_frame (g := g) σ').out
      exact ⟨os, h⟩
    · exact ⟨[], (List.append_nil _).symm⟩
  obtain ⟨os3, e3⟩ := hfin
  refine ⟨skips.map .skip ++ [.send s n, .acquired t] ++ os1 ++ os2 ++ os3, ?_, by simp, ?_⟩
  · rw [e3, d2, hσ, c1, b5]
    simp only [List.append_assoc]
  · exact List.mem_append_left _ (List.mem_append_right _ (d3 n s hh hp))

/-- C118: an exception that is left over (other than `StreamClosedError`) ends the next run at once. -/
theorem C118_exception (g : DGraph N T K) (cfg : SConf T) {e : PyErr} {r : List TcpExc} (hx : x₀.excs = .other e :: r)
    (k : FineTick N T S) : (x₀.again g).iteration g cfg k = .error e := by
  have hex : ∀ (es : List (SrvIo N T S)) (y : FineSrv N T K S), ∃ l, (y.ioRun es).excs = y.excs ++ l := by
    intro es
    induction es with
    | nil => intro y; exact ⟨[], (List.append_nil _).symm⟩
    | cons e es ih =>
      intro y
      obtain ⟨l, hl⟩ := ih (y.ioStep e)
      refine ⟨addExcs (y.links (streamOf e)) e ++ l, hl.trans ?_⟩
      rw [(ioStep_add y e).2, List.append_assoc]
  obtain ⟨l, hl⟩ := hex k.io0 (x₀.again g)
  refine (fine_cases (g := g) (cfg := cfg) (x₀.again g) k).1 e (r ++ l) ?_
  rw [hl]
  change x₀.excs ++ l = _
  rw [hx]
  rfl

namespace Ex.Reuse

/-- One block, which may be tried once. -/
def graph : DGraph (Fin 1) (Fin 1) (Fin 1) := finGraph 1 1 (fun _ => []) (fun _ => 0) (fun _ => 0) [0]

theorem graph_ok : graph.OK := finGraph_ok (by decide) (by decide) (by decide) (by decide)

def conf : SConf (Fin 1) := ⟨[0], fun _ => none⟩

/-- Nothing happens between the statements. -/
def ftick (io : List (SrvIo (Fin 1) (Fin 1) Nat)) : FineTick (Fin 1) (Fin 1) Nat where
  io0 := []
  io1 := io
  look := fun _ => ⟨[], [], []⟩
  chk := fun _ _ => .reject
  pick := pickMin
  now := 0
  pickLost := fun _ => pickMin
  late := false

theorem legal (io : List (SrvIo (Fin 1) (Fin 1) Nat)) : FineLegal graph (ftick io) := by
  refine ⟨?_, pickMin_legal, fun _ => pickMin_legal⟩
  intro m s _
  cases m <;> first | trivial | exact fun n' _ h => h

/-- Client 7 gets the block and returns it; then client 8 asks for one. -/
def first : List (FineTick (Fin 1) (Fin 1) Nat) :=
  [ftick [.arrive (.acquire 0) 7], ftick [.arrive (.release 0 .success) 7, .arrive (.acquire 0) 8]]

/-- All streams are closed at the end of a run. -/
def next (x : FineSrv (Fin 1) (Fin 1) (Fin 1) Nat) : FineSrv (Fin 1) (Fin 1) (Fin 1) Nat :=
  ((x.disconnect (fun _ => true)).ioRun []).again graph

theorem legal_first : ∀ k ∈ first, FineLegal graph k := by
  intro k hk
  simp only [first, List.mem_cons, List.not_mem_nil, or_false] at hk
  rcases hk with rfl | rfl <;> exact legal _

end Ex.Reuse

open Ex.Reuse in
/-- Although the stop event is cleared: the request of client 8, which is left over from the first run, makes the only block
fail for good in the second, and the run ends although no client has done anything. -/
theorem C118_cost : ∃ x x' : FineSrv (Fin 1) (Fin 1) (Fin 1) Nat, FineRun graph conf first x ∧
    x.srv.stop = true ∧ x.srv.result graph = true ∧ x.queue = [(.acquire 0, 8)] ∧
    FineSteps graph conf (next (x.clear)) [ftick []] x' ∧ x'.srv.stop = true ∧
    .release 0 .success ∉ x'.srv.out ∧ (x'.srv.sched.states 0).failed = 1 := by
  have hx : (fineExec graph conf first (FineSrv.init graph)).map (fun x =>
      decide (x.srv.stop = true ∧ x.srv.result graph = true ∧ x.queue = [(.acquire 0, 8)]) &&
      decide ((next x.clear).srv.stop = false) &&
      (match (next x.clear).iteration graph conf (ftick []) with
      | .ok x' => decide (x'.srv.stop = true ∧ .release 0 .success ∉ x'.srv.out ∧ (x'.srv.sched.states 0).failed = 1)
      | .error _ => false)) = some true := by decide +kernel
  obtain ⟨x, h, e⟩ := fineExec_run _ first [] _ legal_first .init hx
  obtain ⟨e1, e2⟩ := (Bool.and_eq_true _ _).mp e
  obtain ⟨e1, e3⟩ := (Bool.and_eq_true _ _).mp e1
  obtain ⟨h1, h2, h3⟩ := of_decide_eq_true e1
  rcases hz : (next x.clear).iteration graph conf (ftick []) with z | x'
  · rw [hz] at e2
    cases e2
  · rw [hz] at e2
    exact ⟨x, x', h, h1, h2, h3, .step (ks := []) _ .nil (of_decide_eq_true e3) (legal _) hz, of_decide_eq_true e2⟩

open Ex.Reuse in
/-- **The full claim is false**: a new server would have done nothing. -/
theorem C118_false : ¬ C118_statement := by
  intro hC
  obtain ⟨x, x', h, h1, _, _, h2, h3, _⟩ := C118_cost
  obtain ⟨y, h4, h5⟩ := hC (Fin 1) (Fin 1) (Fin 1) Nat graph graph conf conf graph_ok graph_ok (by decide) (by decide)
    first x (fun _ => true) [] h h1 [ftick []] x' h2
  rw [← h5] at h3
  have h6 := h4.one
  have h7 : ∀ l : Nat → Link, (match ({ FineSrv.init graph with links := l } :
      FineSrv (Fin 1) (Fin 1) (Fin 1) Nat).iteration graph conf (ftick []) with
      | .ok y => y.srv.stop
      | .error _ => false) = false := by
    intro l
    rfl
  have h8 := h7 ((x.clear.disconnect (fun _ => true)).ioRun []).links
  rw [h6] at h8
  simp only at h8
  rw [h8] at h3
  cases h3

/-- C118: if no messages and no exceptions are left over, the second run is that of a new server. -/
theorem C118_clean_partial (hx : x.srv.stop = false) (hq : x.queue = []) (he : x.excs = []) :
    x.again g = { FineSrv.init g with links := x.links } := by
  have : ({ Server.init g with stop := x.srv.stop } : Server N T K S) = Server.init g := by
    rw [hx, ← init_stop (g := g) (N := N) (T := T) (K := K) (S := S)]
  change (⟨{ Server.init g with stop := x.srv.stop }, x.queue, x.excs, x.links⟩ : FineSrv N T K S) = _
  rw [this, hq, he]
  rfl

open Ex.Reuse in
/-- So it is if client 8 does not ask. -/
example : ∃ x : FineSrv (Fin 1) (Fin 1) (Fin 1) Nat,
    FineRun graph conf [ftick [.arrive (.acquire 0) 7], ftick [.arrive (.release 0 .success) 7]] x ∧ x.srv.stop = true ∧
    x.clear.srv.stop = false ∧ x.clear.queue = [] ∧ x.clear.excs = [] := by
  have hx : (fineExec graph conf [ftick [.arrive (.acquire 0) 7], ftick [.arrive (.release 0 .success) 7]]
      (FineSrv.init graph)).map (fun x => decide (x.srv.stop = true ∧ x.clear.srv.stop = false ∧ x.clear.queue = [] ∧
        x.clear.excs = [])) = some true := by decide +kernel
  obtain ⟨x, h, e⟩ := fineExec_run _ _ [] _ (by
    intro k hk
    simp only [List.mem_cons, List.not_mem_nil, or_false] at hk
    rcases hk with rfl | rfl <;> exact legal _) .init hx
  exact ⟨x, h, of_decide_eq_true e⟩

open Ex.Reuse in
/-- The second run above meets the hypotheses of `C118_order`, `C118_srun_partial` and `C118_leftover`. -/
example : ∃ x : FineSrv (Fin 1) (Fin 1) (Fin 1) Nat, FineRun graph conf first x ∧
    (∀ p ∈ x.queue, GoodMsg graph conf p.1) ∧ Shut ((next x.clear).links 8) ∧ (next x.clear).excs = [] ∧
    (next x.clear).queue = [(.acquire 0, 8)] ∧
    (∃ x', FineSteps graph conf (next x.clear) [ftick []] x') ∧
    ∃ st, (next x.clear).srv.sched.acquireBlock graph (fun _ _ => .reject) 0 = .ok ([], some 0, st) := by
  have hx : (fineExec graph conf first (FineSrv.init graph)).map (fun x =>
      decide (x.queue = [(.acquire 0, 8)] ∧ x.excs = [] ∧ (next x.clear).srv.stop = false) &&
      ((next x.clear).iteration graph conf (ftick [])).isOk) = some true := by decide +kernel
  obtain ⟨x, h, e⟩ := fineExec_run _ first [] _ legal_first .init hx
  obtain ⟨e1, e2⟩ := (Bool.and_eq_true _ _).mp e
  obtain ⟨h1, h2, h3⟩ := of_decide_eq_true e1
  refine ⟨x, h, ?_, .inr rfl, h2, h1, ?_, ?_⟩
  · rw [h1]
    intro p hp
    rw [List.mem_singleton.1 hp]
    exact List.mem_singleton.2 rfl
  · rcases hz : (next x.clear).iteration graph conf (ftick []) with z | x'
    · rw [hz] at e2
      cases e2
    · exact ⟨x', .step (ks := []) _ .nil h3 (legal _) hz⟩
  · have hs : (next x.clear).srv.sched = Sched.init graph := init_sched
    rw [hs]
    have : (match (Sched.init graph).acquireBlock graph (fun _ _ => .reject) 0 with
        | .ok (l, o, _) => decide (l = [] ∧ o = some 0)
        | .error _ => false) = true := by decide +kernel
    rcases hz : (Sched.init graph).acquireBlock graph (fun _ _ => .reject) 0 with z | ⟨l, o, st⟩
    · rw [hz] at this
      cases this
    · rw [hz] at this
      obtain ⟨rfl, rfl⟩ := of_decide_eq_true this
      exact ⟨st, rfl⟩

open Ex.Reuse in
/-- The hypothesis of `C118_exception` can be met: the streams are closed while the IO loop reads from that of client 8. -/
example : ∃ x : FineSrv (Fin 1) (Fin 1) (Fin 1) Nat, FineRun graph conf first x ∧ x.srv.stop = true ∧
    ∃ r, ((x.disconnect (fun _ => true)).ioRun [.half 8, .put 8]).clear.excs = .other .attributeError :: r := by
  have hx : (fineExec graph conf first (FineSrv.init graph)).map (fun x => decide (x.srv.stop = true ∧
      ((x.disconnect (fun _ => true)).ioRun [.half 8, .put 8]).clear.excs = [.other .attributeError])) = some true := by
    decide +kernel
  obtain ⟨x, h, e⟩ := fineExec_run _ first [] _ legal_first .init hx
  obtain ⟨h1, h2⟩ := of_decide_eq_true e
  exact ⟨x, h, h1, [], h2⟩

end Verif
