import Verif.Proofs.ClusterHist
import Verif.Proofs.ClusterProj
import Verif.Spec.ClusterExec
import Verif.Props.System
import Verif.Props.ServerStop

/-! # The server together with its workers: C82 to C86 -/

namespace Verif

open Spec

variable {N T K S : Type} [DecidableEq N] [DecidableEq T] [DecidableEq K] [DecidableEq S]
  {g : DGraph N T K} {c : SysConf T} {es : List (ClEv N T S)} {x : Cluster N T K S}

/-! ### Examples -/

namespace Ex

/-- One block, two attempts. -/
def single : DGraph (Fin 1) (Fin 1) (Fin 1) := finGraph 1 1 (fun _ => []) (fun _ => 0) (fun _ => 1) [0]

theorem single_ok : single.OK := finGraph_ok (by decide) (by decide) (by decide) (by decide)

/-- Client `s` asks for a block and gets an answer. -/
def fetch (s : Nat) : List (SimpleCl (Fin k) (Fin 1) Nat) :=
  [.client s, .up s, .loop, .down s, .client s]

/-- Client `s` gives back its block. -/
def giveBack (s : Nat) : List (SimpleCl (Fin k) (Fin 1) Nat) := [.client s, .up s, .loop]

/-- Run events of an example. -/
def clRun {k : Nat} [NeZero k] (g : DGraph (Fin k) (Fin 1) (Fin k)) (l : List (SimpleCl (Fin k) (Fin 1) Nat)) :
    Option (Cluster (Fin k) (Fin 1) (Fin k) Nat) := clExec g lineConf (l.map (SimpleCl.ev pickMin))

theorem clRun_run {k : Nat} [NeZero k] {g : DGraph (Fin k) (Fin 1) (Fin k)}
    {l : List (SimpleCl (Fin k) (Fin 1) Nat)} {α : Type} (f : Cluster (Fin k) (Fin 1) (Fin k) Nat → α) {v : α}
    (h : (clRun g l).map f = some v) :
    ∃ x, ClRun g lineConf (l.map (SimpleCl.ev pickMin)) x ∧ f x = v :=
  clExec_run (simpleCl_legal pickMin_legal l) f h

theorem worksOn_of {k : Nat} {x : Cluster (Fin k) (Fin 1) (Fin k) Nat} {s : Nat} {n : Fin k}
    (h : (x.conn s).map (·.phase) = some (.working n)) : WorksOn x s n :=
  Option.map_eq_some_iff.1 h

end Ex

/-! ### C82 -/

/-- The claim: no two processes are in the process function with the same block at the same time. -/
def C82_statement : Prop :=
  ∀ (N T K S : Type) [DecidableEq N] [DecidableEq T] [DecidableEq K] [DecidableEq S] (g : DGraph N T K)
    (c : SysConf T) (es : List (ClEv N T S)) (x : Cluster N T K S) (s s' : S) (n : N), g.OK → ClRun g c es x →
    WorksOn x s n → WorksOn x s' n → s = s'

/-- C82, partial.  The full claim does not exclude closed streams and is false (`C82_false`): of the processes whose
connections the server considers open, at most one is in the process function with a given block, and the server has
it on record as the one that has the block. -/
theorem C82_exclusive_partial (hg : g.Loose) (h : ClRun g c es x) {s s' : S} {n : N} (hs : s ∉ x.sys.closed)
    (hs' : s' ∉ x.sys.closed) (h1 : WorksOn x s n) (h2 : WorksOn x s' n) :
    s = s' ∧ holder x.sys.srv.out n = some s := by
  have key : ∀ s, s ∉ x.sys.closed → WorksOn x s n → holder x.sys.srv.out n = some s := by
    rintro s hs ⟨k, hk, hp⟩
    have := ((ClRun.inv hg h).conn s k hk).talk hs
    unfold Talk at this
    rw [hp] at this
    exact this.2.2.2
  have e1 := key s hs h1
  have e2 := key s' hs' h2
  rw [e1] at e2
  exact ⟨Option.some.inj e2, e1⟩

/-- C82, partial: if closed streams belong to processes that do not work any more, for example because streams are
closed only when processes end, no block is processed by two processes at the same time. -/
theorem C82_dead_partial (hg : g.Loose) (h : ClRun g c es x) (hd : ∀ s ∈ x.sys.closed, ∀ n, ¬ WorksOn x s n)
    {s s' : S} {n : N} (h1 : WorksOn x s n) (h2 : WorksOn x s' n) : s = s' :=
  (C82_exclusive_partial hg h (fun hc => hd s hc n h1) (fun hc => hd s' hc n h2) h1 h2).1

/-- Client 7 works on the block and is disconnected, then client 8 gets the block. -/
def Ex.twice : List (SimpleCl (Fin 1) (Fin 1) Nat) :=
  [.connect 7 0, .connect 8 0] ++ Ex.fetch 7 ++ [.close 7, .loop] ++ Ex.fetch 8

/-- C82 is false: if the connection of a process breaks, the server hands its block to another process, while the
first one still works on it. -/
theorem C82_false : ¬ C82_statement := by
  intro hc
  have hx : (Ex.clRun Ex.single Ex.twice).map (fun x =>
      decide ((x.conn 7).map (·.phase) = some (.working 0) ∧ (x.conn 8).map (·.phase) = some (.working 0))) =
      some true := by decide +kernel
  obtain ⟨x, h, e⟩ := Ex.clRun_run _ hx
  obtain ⟨e1, e2⟩ := of_decide_eq_true e
  have := hc _ _ _ _ _ _ _ _ _ _ _ Ex.single_ok h (Ex.worksOn_of e1) (Ex.worksOn_of e2)
  exact absurd this (by decide)

example : ∃ es x, ClRun Ex.single Ex.lineConf es x ∧ 7 ∉ x.sys.closed ∧ WorksOn x 7 0 := by
  have hx : (Ex.clRun Ex.single ([.connect 7 0, .connect 8 0] ++ Ex.fetch 7)).map (fun x =>
      decide ((x.conn 7).map (·.phase) = some (.working 0) ∧ x.sys.closed = [])) = some true := by decide +kernel
  obtain ⟨x, h, e⟩ := Ex.clRun_run _ hx
  obtain ⟨e1, e2⟩ := of_decide_eq_true e
  exact ⟨_, x, h, by rw [e2]; simp, Ex.worksOn_of e1⟩

/-! ### C83 -/

/-- C83: every message of a client, on its way or in the queue of the server, is one that the server understands:
a request for a block of a task of this run, or the return of a block of this run as SUCCESS or FAILED. -/
theorem C83_good_messages (hg : g.Loose) (h : ClRun g c es x) (s : S) : ∀ m ∈ unhandled x s, GoodMsg g c.cfg m := by
  intro m hm
  unfold unhandled at hm
  rcases hk : x.conn s with _ | k
  · rw [hk] at hm
    rw [((ClRun.inv hg h).fresh s hk).1] at hm
    cases hm
  · rw [hk] at hm
    exact ((ClRun.inv hg h).conn s k hk).good m hm

/-- C83: no client ends with `UnexpectedMessage`: a client that waits for an answer gets a block or the request to
shut down, and a block is one of its task. -/
theorem C83_expected_messages (hg : g.Loose) (h : ClRun g c es x) {s : S} {k : Conn N T} (hk : x.conn s = some k) :
    k.phase ≠ .ended (some .unexpectedMessage) ∧
    (∀ m ∈ unread k, m = .requestShutdown ∨ ∃ n ∈ g.nodes, g.task n = k.task ∧ m = .sendBlock n) ∧
    ∀ n, k.phase = .working n → n ∈ g.nodes ∧ g.task n = k.task := by
  have hc := (ClRun.inv hg h).conn s k hk
  refine ⟨hc.calm, ?_, hc.working⟩
  intro m hm
  obtain ⟨h1, h2⟩ := hc.block m hm
  cases m with
  | sendBlock n => obtain ⟨h3, h4⟩ := h2 n rfl; exact Or.inr ⟨n, h3, h4, rfl⟩
  | requestShutdown => exact Or.inl rfl
  | other => exact absurd rfl h1

/-- C83: whatever happens next, the server does not raise an exception, as long as no process has reported one. -/
theorem C83_never_raises (hg : g.Loose) (hnd : c.cfg.served.Nodup)
    (hserved : ∀ n ∈ g.nodes, g.task n ∈ c.cfg.served) (h : ClRun g c es x)
    (hr : ∀ e, .sys e ∈ es → NoReports e) {e : ClEv N T S} (hl : LegalCl c x e) (he : ∀ e', e = .sys e' → NoReports e') :
    ∃ y, x.step g c e = .ok y := by
  cases e with
  | connect s t w => exact ⟨_, rfl⟩
  | client s body => exact ⟨_, rfl⟩
  | kill s => exact ⟨_, rfl⟩
  | up s => exact ⟨_, rfl⟩
  | down s => exact ⟨_, rfl⟩
  | breaks s e => exact ⟨_, rfl⟩
  | sys e =>
    obtain ⟨es', hrun⟩ := ClRun.proj hg (Q := NoReports) (fun _ _ => trivial) h hr
    obtain ⟨y, hy⟩ := C68_never_raises hg hnd hserved (fun _ _ h => h) hrun (legal_sys hl) (he e rfl)
    exact ⟨_, by simp only [Cluster.step, hy]; rfl⟩

/-- C83: the server with these workers does nothing that it does not do with arbitrary clients; what is proved
about `SysRun` and `SRun` holds here. -/
theorem C83_refines (hg : g.Loose) (h : ClRun g c es x) :
    (∃ es', SysRun g c Anything es' x.sys) ∧ ∃ ks, SRun g c.cfg ks x.sys.srv :=
  ⟨(ClRun.inv hg h).run, ClRun.srun hg h⟩

example : ∃ es x, ClRun Ex.line Ex.lineConf es x ∧ (∀ e, .sys e ∈ es → NoReports e) ∧
    unhandled x 7 = [.release 0 .success, .acquire 0] := by
  have hx : (Ex.clRun Ex.line ([.connect 7 0, .connect 8 0] ++ Ex.fetch 7 ++ [.client 7, .client 7])).map (fun x =>
      decide (unhandled x 7 = [.release 0 .success, .acquire 0])) = some true := by decide +kernel
  obtain ⟨x, h, e⟩ := Ex.clRun_run _ hx
  refine ⟨_, x, h, ?_, of_decide_eq_true e⟩
  intro e he
  simp only [Ex.fetch, SimpleCl.ev, List.map_cons, List.map_nil, List.cons_append, List.nil_append, List.mem_cons,
    reduceCtorEq, ClEv.sys.injEq, false_or, or_false, List.not_mem_nil] at he
  rw [he]
  intro p hp
  cases hp

/-! ### C84 -/

/-- C84: a request for a block does not get lost and is not answered twice: as long as the connection of a client
that waits is intact, its request is on its way, is delayed by the server, or is answered, and exactly one of
these. -/
theorem C84_request (hg : g.Loose) (h : ClRun g c es x) {s : S} {k : Conn N T} (hk : x.conn s = some k)
    (hs : s ∉ x.sys.closed) (hc : k.tcp.connected = true) (hp : k.phase = .waiting) :
    (unhandled x s).count (.acquire k.task) + (x.sys.srv.pending k.task).count s + (unread k).length = 1 := by
  have hu : unhandled x s = queued s x.sys.queue ++ underway k := by simp only [unhandled, hk]
  have ht := ((ClRun.inv hg h).conn s k hk).talk hs
  unfold Talk at ht
  rw [hp] at ht
  dsimp only at ht
  rw [← hu] at ht
  rcases ht with ⟨u', a1, a2, a3, a4⟩ | ⟨a1, a2, a3⟩ | ⟨a1, a2, m', a3, a4⟩ | ⟨a0, a1, a2, a3⟩
  · rw [a1, a4, List.count_append, List.count_eq_zero.2 (a2 _), List.count_eq_zero.2 a3]
    simp
  · rw [a1, a2, a3]; rfl
  · rw [a1, List.count_eq_zero.2 a2, a3]; rfl
  · rw [a0] at hc; cases hc

/-- C84: a process that does not wait for an answer has no request under way and no unread answer, and a client has
requests for its own task only. -/
theorem C84_no_request (hg : g.Loose) (h : ClRun g c es x) {s : S} {k : Conn N T} (hk : x.conn s = some k)
    (hs : s ∉ x.sys.closed) (hp : k.phase = .idle ∨ (∃ n, k.phase = .working n) ∨ ∃ n e, k.phase = .failing n e) :
    (unhandled x s).count (.acquire k.task) = 0 ∧ (∀ t, s ∉ x.sys.srv.pending t) ∧ unread k = [] := by
  have hu : unhandled x s = queued s x.sys.queue ++ underway k := by simp only [unhandled, hk]
  have hc := (ClRun.inv hg h).conn s k hk
  have ht := hc.talk hs
  rw [← hu] at ht
  have hall : s ∉ x.sys.srv.pending k.task → ∀ t, s ∉ x.sys.srv.pending t := by
    intro h1 t
    by_cases e : t = k.task
    · subst e; exact h1
    · exact hc.other t e
  unfold Talk at ht
  rcases hp with hp | ⟨n, hp⟩ | ⟨n, e, hp⟩ <;> rw [hp] at ht
  · exact ⟨List.count_eq_zero.2 (ht.1 _), hall ht.2.1, ht.2.2⟩
  · exact ⟨by rw [ht.1]; rfl, hall ht.2.1, ht.2.2.1⟩
  · exact ⟨List.count_eq_zero.2 (ht.1 _), hall ht.2.1, ht.2.2⟩

/-- C84: a block that the server has on record with a client that is alive and connected is not forgotten: it is on its
way to the client, the client works on it, or its return is on its way. -/
theorem C84_block (hg : g.Loose) (h : ClRun g c es x) {s : S} {n : N} (hn : holder x.sys.srv.out n = some s)
    (hs : s ∉ x.sys.closed) :
    ∃ k, x.conn s = some k ∧ (k.tcp.connected = true → ¬ Phase.Over k.phase →
      .sendBlock n ∈ unread k ∨ k.phase = .working n ∨ (∃ e, k.phase = .failing n e) ∨
      ∃ m ∈ unhandled x s, IsReturn n m) := by
  have hi := ClRun.inv hg h
  rcases hk : x.conn s with _ | k
  · exact absurd hn ((hi.fresh s hk).2.2 n)
  · refine ⟨k, rfl, ?_⟩
    intro hc hp
    have hu : unhandled x s = queued s x.sys.queue ++ underway k := by simp only [unhandled, hk]
    rcases (hi.conn s k hk).held n hn with h1 | h1 | h1 | h1 | h1 | h1 | h1
    · exact absurd h1 hs
    · exact absurd h1 hp
    · rw [hc] at h1; cases h1
    · exact Or.inr (Or.inl h1)
    · exact Or.inr (Or.inr (Or.inl h1))
    · exact Or.inl h1
    · exact Or.inr (Or.inr (Or.inr (by rw [hu]; exact h1)))

example : ∃ es x k, ClRun Ex.line Ex.lineConf es x ∧ x.conn 8 = some k ∧ 8 ∉ x.sys.closed ∧
    k.tcp.connected = true ∧ k.phase = .waiting ∧ x.sys.srv.pending 0 = [8] ∧ holder x.sys.srv.out 0 = some 7 := by
  have hx : (Ex.clRun Ex.line ([.connect 7 0, .connect 8 0] ++ Ex.fetch 7 ++ [.client 8, .up 8, .loop])).map (fun x =>
      decide ((x.conn 8).map (fun k => (k.phase, k.tcp.connected)) = some (.waiting, true) ∧ x.sys.closed = [] ∧
        x.sys.srv.pending 0 = [8] ∧ holder x.sys.srv.out 0 = some 7)) = some true := by decide +kernel
  obtain ⟨x, h, e⟩ := Ex.clRun_run _ hx
  obtain ⟨e1, e2, e3, e4⟩ := of_decide_eq_true e
  obtain ⟨k, hk, e5⟩ := Option.map_eq_some_iff.1 e1
  injection e5 with e5 e6
  exact ⟨_, x, k, h, hk, by rw [e2]; simp, e6, e5, e3, e4⟩

/-! ### C85 -/

/-- C85: the server counts a block as completed only if the check function accepted it or the process function was
called with it and ended well, in some process. -/
theorem C85_completed (hg : g.Loose) (h : ClRun g c es x) {n : N} (hn : Done (evs x.sys.srv.out) n) :
    .skip n ∈ x.sys.srv.out ∨ Ran g c es n EndsWell := by
  rcases hn with hn | hn
  · obtain ⟨o, h1, h2⟩ := List.mem_filterMap.1 hn
    cases o with
    | release m st =>
      cases st <;> simp only [toEv, Option.some.injEq, reduceCtorEq, Ev.good.injEq] at h2
      subst h2
      exact Or.inr ((ClRun.hist hg h).completed m h1)
    | _ => simp only [toEv, Option.some.injEq, reduceCtorEq] at h2
  · obtain ⟨o, h1, h2⟩ := List.mem_filterMap.1 hn
    cases o with
    | skip m =>
      simp only [toEv, Option.some.injEq, Ev.skip.injEq] at h2
      subst h2
      exact Or.inl h1
    | release m st => cases st <;> simp only [toEv, Option.some.injEq, reduceCtorEq] at h2
    | _ => simp only [toEv, Option.some.injEq, reduceCtorEq] at h2

/-- C85: the server counts a failure of a block only if the process function was called with it and did not end
well, or if the connection of a client to which it was sent is closed. -/
theorem C85_failed (hg : g.Loose) (h : ClRun g c es x) {n : N} (hn : .bad n ∈ evs x.sys.srv.out) :
    Ran g c es n (fun b => ¬ EndsWell b) ∨ ∃ s ∈ x.sys.closed, .send s n ∈ x.sys.srv.out := by
  obtain ⟨o, h1, h2⟩ := List.mem_filterMap.1 hn
  cases o with
  | release m st =>
    cases st <;> simp only [toEv, Option.some.injEq, reduceCtorEq, Ev.bad.injEq] at h2
    subst h2
    exact (ClRun.hist hg h).failed m h1
  | _ => simp only [toEv, Option.some.injEq, reduceCtorEq] at h2

example : ∃ es, ∃ x : Cluster (Fin 1) (Fin 1) (Fin 1) Nat, ClRun Ex.single Ex.lineConf es x ∧ Done (evs x.sys.srv.out) 0 ∧ .bad 0 ∈ evs x.sys.srv.out ∧
    x.sys.closed = [] := by
  have hx : (Ex.clRun Ex.single ([.connect 7 0] ++ Ex.fetch 7 ++ [.fail 7, .client 7, .up 7, .loop, .up 7, .loop] ++
      Ex.fetch 7 ++ Ex.giveBack 7)).map (fun x => decide (Done (evs x.sys.srv.out) 0 ∧
        .bad 0 ∈ evs x.sys.srv.out ∧ x.sys.closed = [])) = some true := by decide +kernel
  obtain ⟨x, h, e⟩ := Ex.clRun_run _ hx
  exact ⟨_, x, h, of_decide_eq_true e⟩

/-! ### C86 -/

omit [DecidableEq N] [DecidableEq T] [DecidableEq S] in
theorem sent_hand {out : List (Out N T S)} {s : S} {n : N} (h : .send s n ∈ out) : Ev.hand n ∈ evs out :=
  List.mem_filterMap.2 ⟨_, h, rfl⟩

/-- C86: while a process is in the process function with a block, and already when the block is on its way to it,
every block that this block depends on, directly or indirectly, was accepted by its check function or was processed:
the process function was called with it and ended well.  This holds with any failures and lost connections. -/
theorem C86_order (hg : g.Loose) (h : ClRun g c es x) {s : S} {k : Conn N T} {n : N} (hk : x.conn s = some k)
    (hn : .sendBlock n ∈ unread k ∨ k.phase = .working n ∨ ∃ e, k.phase = .failing n e) {u : N}
    (hu : Anc g u n) : .skip u ∈ x.sys.srv.out ∨ Ran g c es u EndsWell := by
  obtain ⟨ks, hsr⟩ := ClRun.srun hg h
  obtain ⟨a, b, e⟩ := List.append_of_mem (sent_hand (((ClRun.hist hg h).conn s k hk).2 n hn))
  refine C85_completed hg h ?_
  rw [e]
  rcases loose_order hg (hsr.inv hg).run e hu with h1 | h1
  · exact Or.inl (List.mem_append_left _ h1)
  · exact Or.inr (List.mem_append_left _ h1)

/-- C86: when the server stops and no block has failed for good, every block was accepted by its check function or
processed, and the result is `True`. -/
theorem C86_finished (hg : g.Loose) (h : ClRun g c es x) (hstop : x.sys.srv.stop = true)
    (hf : ∀ n, ¬ Dead g (evs x.sys.srv.out) n) :
    Server.result g x.sys.srv = true ∧ ∀ n ∈ g.nodes, .skip n ∈ x.sys.srv.out ∨ Ran g c es n EndsWell := by
  obtain ⟨ks, hsr⟩ := ClRun.srun hg h
  have hx : OrphanExact g (evs x.sys.srv.out) := exact_of_one (fun n _ f f' hd _ _ _ => absurd hd (hf f))
  have hd : ∀ n ∈ g.nodes, Done (evs x.sys.srv.out) n := by
    intro n hn
    rcases ((C34_stop_means_finished_partial hg hsr hx).1 hstop).1 n hn with h1 | h1 | ⟨f, h1, _⟩
    · exact h1
    · exact absurd h1 (hf n)
    · exact absurd h1 (hf f)
  exact ⟨C41_all_done hg hsr hd, fun n hn => C85_completed hg h (hd n hn)⟩

/-- Client 7 does everything. -/
def Ex.alone : List (SimpleCl (Fin 2) (Fin 1) Nat) :=
  [.connect 7 0] ++ Ex.fetch 7 ++ Ex.giveBack 7 ++ Ex.fetch 7

example : ∃ es, ∃ x : Cluster (Fin 2) (Fin 1) (Fin 2) Nat, ClRun Ex.line Ex.lineConf es x ∧ WorksOn x 7 1 ∧
    Anc Ex.line 0 1 ∧ Ex.line.OK := by
  have hx : (Ex.clRun Ex.line Ex.alone).map (fun x => decide ((x.conn 7).map (·.phase) = some (.working 1))) =
      some true := by decide +kernel
  obtain ⟨x, h, e⟩ := Ex.clRun_run _ hx
  exact ⟨_, x, h, Ex.worksOn_of (of_decide_eq_true e),
    Relation.TransGen.single (by unfold Edge; decide), Ex.line_ok⟩

example : ∃ es, ∃ x : Cluster (Fin 2) (Fin 1) (Fin 2) Nat, ClRun Ex.line Ex.lineConf es x ∧
    x.sys.srv.stop = true ∧ ∀ n, ¬ Dead Ex.line (evs x.sys.srv.out) n := by
  have hx : (Ex.clRun Ex.line (Ex.alone ++ Ex.giveBack 7)).map (fun x => decide (x.sys.srv.stop = true ∧
      ∀ n, ¬ Dead Ex.line (evs x.sys.srv.out) n)) = some true := by decide +kernel
  obtain ⟨x, h, e⟩ := Ex.clRun_run _ hx
  obtain ⟨e1, e2⟩ := of_decide_eq_true e
  exact ⟨_, x, h, e1, e2⟩

end Verif
