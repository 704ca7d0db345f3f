import Verif.Model.Convenience
import Verif.Props.Serial
import Verif.Props.ServerStop

/-! # C62, C63: results of `run_blockwise`, and running it twice -/

namespace Verif

open Spec

variable {N T K S : Type} [DecidableEq N] [DecidableEq T] [DecidableEq K] [DecidableEq S]
  {g : DGraph N T K} {served : List T}

/-! ### C62 -/

/-- The claim (docstring of `run_blockwise`, `convenience.py` 23-26), for `multiprocessing=False`. -/
def C62_statement : Prop :=
  ∀ (N T K : Type) [DecidableEq N] [DecidableEq T] [DecidableEq K] (g : DGraph N T K) (served : List T)
    (ks : List (SerTick N T)) (σ : Serial N T K), g.OK → (∀ t ∈ g.tasks, t ∈ served) → SerRun g served ks σ →
    σ.ended = true → (truthy (σ.returned g) = true ↔ ∀ n ∈ g.nodes, Done (serEvs σ.out) n)

omit [DecidableEq N] [DecidableEq K] in
/-- C62: what the code does instead: the value that is returned is true as soon as there is a task, whatever
happened to its blocks, so a caller cannot learn from it that blocks failed. -/
theorem C62_always_true {σ : Serial N T K} : truthy (σ.returned g) = true ↔ ∃ t, t ∈ g.rootTasks ∨ t ∈ g.tasks := by
  have h1 : truthy (σ.returned g) = true ↔ ∃ t, t ∈ Sched.stateKeys g := by
    unfold truthy Serial.returned
    cases Sched.stateKeys g with
    | nil => simp
    | cons a l => simp only [List.map_cons, List.isEmpty_cons, Bool.not_false, true_iff]; exact ⟨a, List.mem_cons_self⟩
  rw [h1]
  refine exists_congr (fun t => ?_)
  unfold Sched.stateKeys
  by_cases ht : t ∈ g.rootTasks <;> simp [ht]

/-- C62, partial.  The full claim is false (`C62_false`): if no process function marks a block as failed or raises and
no check function accepts one, the value is true (if there is a task) and every block was processed. -/
theorem C62_success_partial (hg : g.OK) (hs : ∀ t ∈ g.tasks, t ∈ served) {ks : List (SerTick N T)} {σ : Serial N T K}
    (h : SerRun g served ks σ) (hk : ∀ k ∈ ks, SerTick.Succeeds k ∧ SerTick.NoSkips k) (hend : σ.ended = true)
    {n : N} (hn : n ∈ g.nodes) :
    truthy (σ.returned g) = true ∧ Done (serEvs σ.out) n ∧ ∀ t s, (t, s) ∈ σ.returned g → t ∈ g.tasks →
      s.isDone = true := by
  obtain ⟨h1, _, h3⟩ := C37_each_once_partial hg hs h hk hend
  refine ⟨C62_always_true.2 ⟨_, Or.inr (hg.task_mem n hn)⟩, Or.inl ((mem_good _ _).2 (h1 n hn).2), ?_⟩
  intro t s hm ht
  obtain ⟨t', _, e⟩ := List.mem_map.1 hm
  cases e
  exact h3 t ht

/-- C62 is false: the only block of the only task fails, and the value is true. -/
theorem C62_false : ¬ C62_statement := by
  intro hC
  have hok : (finGraph 1 1 (fun _ => []) (fun _ => 0) (fun _ => 0) [0]).OK :=
    finGraph_ok (by decide) (by decide) (by decide) (by decide)
  have hx : (serExec (finGraph 1 1 (fun _ => []) (fun _ => 0) (fun _ => 0) [0]) [0] [serTick pickMin [] [0]]).map
      (fun σ => decide (σ.ended = true ∧
        truthy (σ.returned (finGraph 1 1 (fun _ => []) (fun _ => 0) (fun _ => 0) [0])) = true ∧
        ¬ Done (serEvs σ.out) 0)) = some true := by decide +kernel
  obtain ⟨σ, h1, h2⟩ := serExec_run (by
    intro k hk
    rw [List.mem_singleton.1 hk]
    exact pickMin_legal) _ hx
  obtain ⟨e1, e2, e3⟩ := of_decide_eq_true h2
  exact e3 ((hC _ _ _ _ _ _ _ hok (by decide) h1 e1).1 e2 0 (by decide))

/-- Two blocks, both processed. -/
example : ∃ (ks : List (SerTick (Fin 2) (Fin 1))) (σ : Serial (Fin 2) (Fin 1) (Fin 2)),
    (finGraph 2 1 (fun _ => []) (fun _ => 0) (fun _ => 0) [0]).OK ∧
    SerRun (finGraph 2 1 (fun _ => []) (fun _ => 0) (fun _ => 0) [0]) [0] ks σ ∧
    (∀ k ∈ ks, SerTick.Succeeds k ∧ SerTick.NoSkips k) ∧ σ.ended = true := by
  have hok : (finGraph 2 1 (fun _ => []) (fun _ => 0) (fun _ => 0) [0]).OK :=
    finGraph_ok (by decide) (by decide) (by decide) (by decide)
  have hx : (serExec (finGraph 2 1 (fun _ => []) (fun _ => 0) (fun _ => 0) [0]) [0]
      [serTick pickMin, serTick pickMin]).map (fun σ => decide (σ.ended = true)) = some true := by decide +kernel
  have hk : ∀ k ∈ [serTick pickMin, serTick pickMin], k = (serTick pickMin : SerTick (Fin 2) (Fin 1)) := by
    intro k hk
    simpa using hk
  obtain ⟨σ, h1, h2⟩ := serExec_run (by
    intro k hk'
    rw [hk k hk']
    exact pickMin_legal) _ hx
  refine ⟨_, σ, hok, h1, ?_, of_decide_eq_true h2⟩
  intro k hk'
  rw [hk k hk']
  exact ⟨fun n => by simp [serTick], fun t i n => by simp [serTick]⟩

/-! ### C63 -/

/-- The claim: `run_blockwise` can be called a second time on the same `Server` object, and then does the same as on
a new one. -/
def C63_statement : Prop :=
  ∀ (N T K S : Type) [DecidableEq N] [DecidableEq T] [DecidableEq K] [DecidableEq S] (g g' : DGraph N T K)
    (cfg cfg' : SConf T) (ks ks' : List (Server.Tick N T S)) (σ : Server N T K S), g.OK → g'.OK → SRun g cfg ks σ →
    σ.stop = true → (∀ k ∈ ks', GoodTick g' cfg' k) →
    Server.eventLoop g' cfg' ks' (Server.start g' σ.stop) = Server.eventLoop g' cfg' ks' (Server.init g')

theorem start_fields (g : DGraph N T K) (b : Bool) :
    (Server.start g b : Server N T K S).stop = b ∧ (Server.start g b : Server N T K S).sched = Sched.init g ∧
    (Server.start g b : Server N T K S).pending = fun _ => [] := by
  have h := recruit_frame (g := g) (⟨Sched.init g, [], [], [], false, b, fun _ => [], []⟩ : Server N T K S)
  refine ⟨?_, h.sched, h.pending⟩
  have key : ∀ (l : List T) (σ : Server N T K S), (l.foldl (fun σ t =>
    if t ∈ σ.started then σ
    else { (σ.emit [.taskStart t, .callback t]) with started := σ.started ++ [t] }) σ).stop = σ.stop := by
    intro l
    induction l with
    | nil => intro σ; rfl
    | cons t l ih =>
      intro σ
      rw [List.foldl_cons, ih]
      split <;> rfl
  exact key _ _

/-- C63: what the code does instead.  After a run that ended because all tasks were done, a second run on the same
object handles no message, whatever clients send: the event loop is left at once. -/
theorem C63_second_run {σ : Server N T K S} (hstop : σ.stop = true) (g' : DGraph N T K) (cfg' : SConf T)
    (ks' : List (Server.Tick N T S)) :
    Server.eventLoop g' cfg' ks' (Server.start g' σ.stop) = .ok (Server.start g' σ.stop) := by
  cases ks' with
  | nil => rfl
  | cons k ks' => unfold Server.eventLoop; rw [(start_fields g' σ.stop).1, hstop]; rfl

/-- C63: so the second run returns `False` as soon as some task has a block. -/
theorem C63_second_result (hg : g.Loose) (b : Bool) (h : ∃ n, n ∈ g.nodes) :
    Server.result g (Server.start g b : Server N T K S) = false := by
  obtain ⟨n, hn⟩ := h
  have hr : Run g [] (Sched.init g) := Run.init
  have h0 : Server.result g (Server.start g b : Server N T K S) ≠ true := by
    intro hc
    unfold Server.result at hc
    rw [(start_fields g b).2.1, List.all_eq_true] at hc
    have h1 := (C22_loose_is_done_no_orphans hg hr (g.task n) (fun m _ _ ho => by
      obtain ⟨f, h1, _⟩ := ho; exact absurd h1.1 (List.not_mem_nil))).1 (hc _ (hg.task_mem n hn)) n hn rfl
    rcases h1 with h1 | h1
    · rcases h1 with h1 | h1 <;> cases h1
    · exact absurd h1.1 List.not_mem_nil
  simpa using h0

/-- C63, partial.  The full claim is false (`C63_false`): if the caller has cleared the stop event in between, the
second run does the same as a run on a new server. -/
theorem C63_cleared_partial (g' : DGraph N T K) (cfg' : SConf T) (ks' : List (Server.Tick N T S)) :
    Server.eventLoop g' cfg' ks' (Server.start g' false) = Server.eventLoop g' cfg' ks' (Server.init g') := rfl

/-- C63 is false: a single block is processed, the server stops; the second run would have handed out a block. -/
theorem C63_false : ¬ C63_statement := by
  intro hC
  have hok : (finGraph 1 1 (fun _ => []) (fun _ => 0) (fun _ => 0) [0]).OK :=
    finGraph_ok (by decide) (by decide) (by decide) (by decide)
  have hx : (sexec (finGraph 1 1 (fun _ => []) (fun _ => 0) (fun _ => 0) [0]) Ex.conf1
      (ticks [acq 0 7, ret 0 7])).map (fun σ => decide (σ.stop = true)) = some true := by decide +kernel
  obtain ⟨σ, h, e⟩ := sexec_run (S := Nat) (ticks_legal _) _ hx
  have e1 := of_decide_eq_true e
  have := hC _ _ _ _ _ (finGraph 1 1 (fun _ => []) (fun _ => 0) (fun _ => 0) [0]) _ Ex.conf1 _
    (ticks [acq 0 7]) σ hok hok h e1 (by
      intro k hk
      refine ⟨?_, (ticks_legal [acq 0 7]) k hk⟩
      intro m s hm
      rw [List.mem_singleton.1 hk] at hm
      cases hm
      exact List.mem_singleton.2 rfl)
  rw [C63_second_run e1] at this
  have h2 : (Server.eventLoop (finGraph 1 1 (fun _ => []) (fun _ => 0) (fun _ => 0) [0]) Ex.conf1
    (ticks [acq 0 7]) (Server.init (finGraph 1 1 (fun _ => []) (fun _ => 0) (fun _ => 0) [0]) :
      Server (Fin 1) (Fin 1) (Fin 1) Nat)).toOption.map (fun σ => σ.out.length) = some 5 := by decide +kernel
  rw [← this] at h2
  revert h2
  rw [e1]
  decide +kernel

end Verif
