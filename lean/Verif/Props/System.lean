import Verif.Proofs.SystemFail
import Verif.Spec.SystemExec
import Verif.Props.ServerHold
import Verif.Props.WorkerPool

/-! # The server with its queue and its worker pools: C65, C66, C68 -/

namespace Verif

open Spec

variable {N T K S : Type} [DecidableEq N] [DecidableEq T] [DecidableEq K] [DecidableEq S]
  {g : DGraph N T K} {c : SysConf T} {P : Sys N T K S → SysEv N T S → Prop} {es : List (SysEv N T S)}
  {x y : Sys N T K S}

/-! ### C65 -/

/-- The claim: a block that has failed permanently was sent to a connected client at least once, more exactly:
a block does not fail more often than it was sent to a connected client. -/
def C65_statement : Prop :=
  ∀ (N T K S : Type) [DecidableEq N] [DecidableEq T] [DecidableEq K] [DecidableEq S] (g : DGraph N T K)
    (c : SysConf T) (es : List (SysEv N T S)) (x : Sys N T K S) (ns : List N), g.OK →
    SysDeliv g c Anything es x ns → ∀ n, (evs x.srv.out).count (.bad n) ≤ ns.count n

/-- No client whose stream is closed waits for a block. -/
def OpenRequests (x : Sys N T K S) : SysEv N T S → Prop
  | .loop _ => (∀ t s, (.acquire t, s) ∈ x.queue → s ∉ x.closed) ∧ ∀ t s, s ∈ x.srv.pending t → s ∉ x.closed
  | _ => True

omit [DecidableEq T] in
theorem evs_hand_delivered (cl : List S) : ∀ (os : List (Out N T S)) (n : N), (∀ s m, .send s m ∈ os → s ∉ cl) →
    (evs os).count (.hand n) = (os.filterMap (delivery cl)).count n
  | [], n, _ => rfl
  | o :: os, n, h => by
    have ih := evs_hand_delivered cl os n (fun s m hm => h s m (List.mem_cons_of_mem _ hm))
    unfold evs at ih ⊢
    cases o with
    | send s m =>
      have hs := h s m List.mem_cons_self
      simp only [List.filterMap_cons, toEv, delivery, if_neg hs, List.count_cons, ih]
      by_cases hmn : m = n
      · subst hmn; simp
      · have : ¬ (Ev.hand m = Ev.hand n) := by simpa using hmn
        simp [hmn]
    | release m st => cases st <;> simpa [List.filterMap_cons, toEv, delivery, List.count_cons] using ih
    | skip m => simpa [List.filterMap_cons, toEv, delivery, List.count_cons] using ih
    | _ => simpa [List.filterMap_cons, toEv, delivery] using ih

/-- C65, partial.  The full claim has no `OpenRequests` hypothesis and is false (`C65_false`): as long as no
client is disconnected while it waits for a block, every block was sent to connected clients as often as it
was handed out, and did not fail more often than that. -/
theorem C65_delivered_partial (hg : g.Loose) (hP : ∀ x e, P x e → OpenRequests x e) {ns : List N}
    (h : SysDeliv g c P es x ns) (n : N) :
    (evs x.srv.out).count (.hand n) = ns.count n ∧ (evs x.srv.out).count (.bad n) ≤ ns.count n := by
  have hc : (evs x.srv.out).count (.hand n) = ns.count n := by
    induction h with
    | init h =>
      unfold Sys.init at h
      dsimp only at h
      split at h
      · cases h
      · cases h
        have := (SInv.init (g := g) (S := S)).held n
        obtain ⟨os, e1, e2⟩ := (recruit_frame (g := g)
          (⟨Sched.init g, [], [], [], false, false, fun _ => [], []⟩ : Server N T K S)).out
        unfold Server.init
        rw [e1]
        simp [evs_silent e2]
    | @step es x x' ns e hd hl hp hs ih =>
      have hsame : x'.srv = x.srv → (evs x'.srv.out).count (.hand n) = (ns ++ deliveredBy x x').count n := by
        intro he
        unfold deliveredBy
        rw [he]
        simpa using ih
      cases e with
      | arrive m s => cases hs; exact hsame rfl
      | close s => cases hs; exact hsame rfl
      | proc p => cases hs; exact hsame rfl
      | loop k =>
        have hr := hd.run
        obtain ⟨ks, hk⟩ := hr.srun
        have hi := hk.inv hg
        have ho := hP _ _ hp
        have hns : ∀ s, s ∈ x.closed → NoSend s x.srv x'.srv := by
          intro s hsc
          refine iteration_noSend hg hi (goodTick_of hr hl) ?_ (fun t ht => ho.2 t s ht hsc) (loop_iteration hs)
          intro t he
          simp only [Sys.tickOf, Sys.recv] at he
          split at he
          · cases he
          · split at he
            · cases he
            · next hq =>
              cases he
              exact ho.1 t s (by rw [hq]; exact List.mem_cons_self) hsc
        obtain ⟨os, e1⟩ := chain_out (loop_chain hg hr hl hk hs)
        have hno : ∀ s m, .send s m ∈ os → s ∉ x.closed := by
          intro s m hm hsc
          obtain ⟨⟨os', e2, e3⟩, _⟩ := hns s hsc
          rw [e1] at e2
          rw [List.append_cancel_left e2] at hm
          exact e3 m hm
        unfold deliveredBy
        rw [e1, evs_append, List.count_append, List.count_append, ih, List.drop_left,
          evs_hand_delivered x.closed os n hno]
  refine ⟨hc, ?_⟩
  rw [← hc]
  obtain ⟨ks, hk⟩ := h.run.srun
  have := legal_count (loose_legal hg (hk.inv hg).run) n
  omega

/-- What holds without any hypothesis: after every iteration no block is with a client whose stream is closed; a
block that was sent to such a client has failed before the iteration ended. -/
theorem C65_no_dead_holder (hg : g.Loose) (h : SysRun g c P es x) {k : LoopEnv N T S}
    (hl : LegalEv g c x (.loop k)) (hs : x.step g c (.loop k) = .ok y) {n : N} {s : S}
    (hn : holder y.srv.out n = some s) : s ∉ y.closed := by
  obtain ⟨ks, hk⟩ := h.srun
  have := (C32_iteration hg hk (goodTick_of h hl) (loop_iteration hs)).1 n s hn
  obtain ⟨_, _, _, e, _⟩ := loop_parts hs
  rw [e]
  exact of_decide_eq_false this

namespace Ex

/-- Block `1` is downstream of block `0`, in the same task. -/
def line : DGraph (Fin 2) (Fin 1) (Fin 2) :=
  finGraph 2 1 (fun n => if n = 1 then [0] else []) (fun _ => 0) (fun _ => 0) [0]

theorem line_ok : line.OK := finGraph_ok (by decide) (by decide) (by decide) (by decide)

/-- Two workers, restarted after more than three failures. -/
def lineConf : SysConf (Fin 1) := ⟨⟨[0], fun _ => none⟩, fun _ => 2, 3⟩

/-- Client 7 gets block `0`, client 8 asks for a block, has to wait, and is disconnected; then client 7 returns
block `0`. -/
def lineDead : List (SysEv (Fin 2) (Fin 1) Nat) :=
  [.msg (.acquire 0) 7, .loop [] [], .msg (.acquire 0) 8, .loop [] [], .close 8, .loop [] [],
    .msg (.release 0 .success) 7, .loop [] [], .loop [] []].map SimpleEv.ev

end Ex

/-- C65 is false: the request of the disconnected client is still answered, the block goes nowhere and counts as
failed; without retries a block fails permanently that no client has ever seen. -/
theorem C65_false : ¬ C65_statement := by
  intro hC
  have hx : (sysExec Ex.line Ex.lineConf (fun _ _ => true) Ex.lineDead).map (fun r => decide (
      (evs r.1.srv.out).count (.bad 1) = 1 ∧ Dead Ex.line (evs r.1.srv.out) 1 ∧ r.2 = [0])) = some true := by
    decide +kernel
  obtain ⟨x, ns, _, hd, e⟩ := sysExec_run (P := Anything) (fun _ _ _ => trivial) (simple_legal _) _ hx
  obtain ⟨e1, _, e3⟩ := of_decide_eq_true e
  have e3 : ns = [0] := e3
  have := hC _ _ _ _ _ _ _ _ _ Ex.line_ok hd 1
  rw [e1, e3] at this
  revert this
  decide

/-- Client 7 is disconnected while it has block `0`. -/
example : ∃ (es : List (SysEv (Fin 2) (Fin 1) Nat)) (x : Sys (Fin 2) (Fin 1) (Fin 2) Nat) (ns : List (Fin 2)),
    Ex.line.OK ∧ SysDeliv Ex.line Ex.lineConf OpenRequests es x ns ∧ ns = [0] ∧
    (evs x.srv.out).count (.bad 0) = 1 := by
  have hx : (sysExec Ex.line Ex.lineConf (fun x e => match e with
      | .loop _ => decide (x.queue.all (fun m => m.2 ∉ x.closed) ∧ ∀ t, ∀ s ∈ x.srv.pending t, s ∉ x.closed)
      | _ => true) (([.msg (.acquire 0) 7, .loop [] [], .close 7, .loop [] []] :
        List (SimpleEv (Fin 2) (Fin 1) Nat)).map SimpleEv.ev)).map (fun r => decide (r.2 = [0] ∧
      (evs r.1.srv.out).count (.bad 0) = 1)) = some true := by
    decide +kernel
  obtain ⟨x, ns, _, hd, e⟩ := sysExec_run (P := OpenRequests) (by
    intro x e h
    cases e with
    | loop k =>
      obtain ⟨h1, h2⟩ := of_decide_eq_true h
      refine ⟨fun t s hm hc => ?_, fun t s hm => h2 t s hm⟩
      have := List.all_eq_true.1 h1 _ hm
      exact absurd hc (of_decide_eq_true this)
    | _ => trivial) (simple_legal _) _ hx
  obtain ⟨e1, e2⟩ := of_decide_eq_true e
  exact ⟨_, x, ns, Ex.line_ok, hd, e1, e2⟩

/-! ### C66 -/

/-- After `out`, block `n` is not given back as failed before it is given back as successful. -/
def NextSuccess (n : N) (out out' : List (Out N T S)) : Prop :=
  ∀ pre status post, out' = out ++ pre ++ .release n status :: post → (∀ st, .release n st ∉ pre) →
    status = .success

/-- The claim: once the message that a client has successfully processed its block is in the queue of the server,
the block counts as successful. -/
def C66_statement : Prop :=
  ∀ (N T K S : Type) [DecidableEq N] [DecidableEq T] [DecidableEq K] [DecidableEq S] (g : DGraph N T K)
    (c : SysConf T) (es es' : List (SysEv N T S)) (x y : Sys N T K S) (n : N) (s : S), g.OK →
    SysRun g c Anything es x → holder x.srv.out n = some s → x.queue = [(.release n .success, s)] →
    SysSteps g c Anything x es' y → NextSuccess n x.srv.out y.srv.out

/-- C66, partial.  The full claim has no hypothesis `hopen` and is false (`C66_false`): as long as the stream of the
client stays open, the block counts as successful, provided the client has not already sent another message about
it. -/
theorem C66_success_partial (hg : g.Loose) (h : SysRun g c P es x) {n : N} {s : S} (hn : holder x.srv.out n = some s)
    {q1 q2 : List (Msg N T × S)} (hq : x.queue = q1 ++ (.release n .success, s) :: q2)
    (hq1 : ∀ m, (m, s) ∈ q1 → ¬ Returns n m) {es' : List (SysEv N T S)} (h' : SysSteps g c P x es' y)
    (hopen : s ∉ y.closed) : NextSuccess n x.srv.out y.srv.out := by
  suffices hsuf : (∃ os q1 q2, y.srv.out = x.srv.out ++ os ∧ (∀ st, .release n st ∉ os) ∧
      holder y.srv.out n = some s ∧ y.queue = q1 ++ (.release n .success, s) :: q2 ∧
      ∀ m, (m, s) ∈ q1 → ¬ Returns n m) ∨
      ∃ pre post, y.srv.out = x.srv.out ++ pre ++ .release n .success :: post ∧ ∀ st, .release n st ∉ pre by
    intro pre status post e hpre
    rcases hsuf with ⟨os, _, _, e1, h1, _⟩ | ⟨pre', post', e1, h1⟩
    · rw [e1, List.append_assoc] at e
      have := List.append_cancel_left e
      exact absurd (by rw [this]; simp) (h1 status)
    · rw [e1, List.append_assoc, List.append_assoc] at e
      have e := List.append_cancel_left e
      rcases List.append_eq_append_iff.1 e with ⟨a, e2, e3⟩ | ⟨a, e2, e3⟩
      · cases a with
        | nil => cases e3; rfl
        | cons b a =>
          cases e3
          exact absurd (by rw [e2]; simp) (hpre .success)
      · cases a with
        | nil => cases e3; rfl
        | cons b a =>
          cases e3
          exact absurd (by rw [e2]; simp) (h1 status)
  induction h' with
  | nil => exact Or.inl ⟨[], q1, q2, by simp, by simp, hn, hq, hq1⟩
  | @step es1 y y' e hst hl hp hs ih =>
    have hrun := h.steps hst
    obtain ⟨ks, hk⟩ := hrun.srun
    have hmono : ∀ s, s ∈ y.closed → s ∈ y'.closed := by
      intro s hs'
      cases e with
      | arrive m s => cases hs; exact hs'
      | close s => cases hs; exact List.mem_append_left _ hs'
      | proc p => cases hs; exact hs'
      | loop k =>
        obtain ⟨_, _, _, e, _⟩ := loop_parts hs
        rw [e]
        exact List.mem_append_left _ hs'
    rcases ih (fun hc => hopen (hmono s hc)) with ⟨os, r1, r2, e1, h1, e2, e3, h3⟩ | ⟨pre, post, e1, h1⟩
    swap
    · right
      have hout : ∃ os, y'.srv.out = y.srv.out ++ os := by
        cases e with
        | arrive m s => cases hs; exact ⟨[], by simp⟩
        | close s => cases hs; exact ⟨[], by simp⟩
        | proc p => cases hs; exact ⟨[], by simp⟩
        | loop k => exact chain_out (loop_chain hg hrun hl hk hs)
      obtain ⟨os, e⟩ := hout
      exact ⟨pre, post ++ os, by rw [e, e1]; simp, h1⟩
    cases e with
    | arrive m s' => cases hs; exact Or.inl ⟨os, r1, r2 ++ [(m, s')], e1, h1, e2, by simp [e3], h3⟩
    | close s' => cases hs; exact Or.inl ⟨os, r1, r2, e1, h1, e2, e3, h3⟩
    | proc p => cases hs; exact Or.inl ⟨os, r1, r2, e1, h1, e2, e3, h3⟩
    | loop k =>
      have hi := hk.inv hg
      have hgt := goodTick_of hrun hl
      obtain ⟨_, _, _, hcl, hqu, _⟩ := loop_parts hs
      obtain ⟨σ1, σ2, a1, a2, a3⟩ := iteration_split (loop_iteration hs)
      have hcs : (y.tickOf k).closed s = false := by
        refine decide_eq_false ?_
        rw [← hcl]
        exact hopen
      have hi1 : SInv g σ1 := by
        obtain ⟨σ3, b1, b2⟩ := handleMessages_ok hg hi _ hgt.1 (y.tickOf k).chk hgt.2.1 (y.tickOf k).now
        rw [a1] at b1
        cases b1
        exact b2
      have hrest : holder σ1.out n = some s → Keep n σ1 y'.srv := by
        intro hh
        have k1 := checkLost_keep hg hi1 hgt.2.2 hh hcs a2
        rw [a3]
        exact k1.trans (Keep.frame (late_frame σ2 _))
      have hkeep : Keep n y.srv σ1 → ∀ q1' q2', y'.queue = q1' ++ (.release n .success, s) :: q2' →
          (∀ m, (m, s) ∈ q1' → ¬ Returns n m) →
          ∃ os q1 q2, y'.srv.out = x.srv.out ++ os ∧ (∀ st, .release n st ∉ os) ∧
            holder y'.srv.out n = some s ∧ y'.queue = q1 ++ (.release n .success, s) :: q2 ∧
            ∀ m, (m, s) ∈ q1 → ¬ Returns n m := by
        intro hk1 q1' q2' hq' hq1'
        obtain ⟨⟨o2, f1, f2⟩, f3⟩ := hk1.trans (hrest (hk1.2.trans e2))
        refine ⟨os ++ o2, q1', q2', by rw [f1, e1, List.append_assoc], ?_, f3.trans e2, hq', hq1'⟩
        intro st hm
        rcases List.mem_append.1 hm with hm | hm
        · exact h1 st hm
        · exact f2 st hm
      by_cases herr : 0 < y.errs
      · have hr : y.recv = (.closed, y.queue, y.errs - 1) := by simp only [Sys.recv, if_pos herr]
        left
        refine hkeep ?_ r1 r2 (by rw [hqu, hr]; exact e3) h3
        have : (y.tickOf k).recv = .closed := by simp only [Sys.tickOf, hr]
        rw [this] at a1
        cases a1
        exact Keep.refl n _
      · cases r1 with
        | nil =>
          right
          have hr : (y.tickOf k).recv = .msg (.release n .success) s := by
            simp only [Sys.tickOf, Sys.recv, if_neg herr, e3, List.nil_append]
          have hgm : GoodMsg g c.cfg (.release n .success : Msg N T) := hgt.1 _ _ hr
          obtain ⟨σ3, b1, b2, _, b3⟩ := safeRelease_spec hg hi hgm.1 (s := s) (status := .success) (Or.inl rfl)
            hgt.2.1
          rw [if_pos e2] at b3
          obtain ⟨o3, b4, _⟩ := b3
          rw [hr] at a1
          simp only [Server.handleMessages, Server.handle, b1] at a1
          cases a1
          obtain ⟨o4, b5, _⟩ := (checkAll_frame (g := g) σ3).out
          obtain ⟨o5, b6⟩ := chain_out (checkLost_chain hg hi1 hgt.2.2 a2)
          obtain ⟨o6, b7, _⟩ := (late_frame (g := g) σ2 (y.tickOf k).late).out
          refine ⟨os, o3 ++ o4 ++ o5 ++ o6, ?_, h1⟩
          rw [a3, b7, b6, b5, b4, e1]
          simp
        | cons m0 r1 =>
          obtain ⟨m0, s0⟩ := m0
          left
          have hr : (y.tickOf k).recv = .msg m0 s0 := by
            simp only [Sys.tickOf, Sys.recv, if_neg herr, e3, List.cons_append]
          refine hkeep ?_ r1 r2 ?_ (fun m hm => h3 m (List.mem_cons_of_mem _ hm))
          · rw [hr] at a1
            refine handle_keep hg hi (hgt.1 _ _ hr) hgt.2.1 e2 ?_ a1
            rintro hret rfl
            exact h3 m0 List.mem_cons_self hret
          · rw [hqu]
            simp only [Sys.recv, if_neg herr, e3, List.cons_append]

namespace Ex

/-- Client 7 gets block `0`, processes it, and the message about it is in the queue. -/
def lineRet : List (SysEv (Fin 2) (Fin 1) Nat) :=
  [.msg (.acquire 0) 7, .loop [] [], .msg (.release 0 .success) 7].map SimpleEv.ev

/-- Client 7 is disconnected; the message is the next one to be handled. -/
def lineClose : List (SysEv (Fin 2) (Fin 1) Nat) :=
  [.close 7, .loop [] []].map SimpleEv.ev

end Ex

/-- C66 is false: the client sends its message and disconnects; the server notices the closed stream first and the
block counts as failed. -/
theorem C66_false : ¬ C66_statement := by
  intro hC
  have hx : (sysExec Ex.line Ex.lineConf (fun _ _ => true) Ex.lineRet).bind (fun r =>
      (sysExecFrom Ex.line Ex.lineConf (fun _ _ => true) Ex.lineClose r.1 []).map (fun r' =>
        decide (holder r.1.srv.out 0 = some 7 ∧ r.1.queue = [(.release 0 .success, 7)] ∧
          r'.1.srv.out = r.1.srv.out ++ [.release 0 .failed, .released 0, .taskDone 0, .recruit []]))) =
      some true := by
    decide +kernel
  obtain ⟨x, y, h1, h2, e⟩ := sysExec_run2 (P := Anything) (fun _ _ _ => trivial) (simple_legal _)
    (simple_legal _)
    (fun (x y : Sys (Fin 2) (Fin 1) (Fin 2) Nat) => decide (holder x.srv.out 0 = some 7 ∧ x.queue = [(.release 0 .success, 7)] ∧
      y.srv.out = x.srv.out ++ [.release 0 .failed, .released 0, .taskDone 0, .recruit []])) hx
  obtain ⟨e1, e2, e3⟩ := of_decide_eq_true e
  have := hC _ _ _ _ _ _ _ _ _ _ 0 7 Ex.line_ok h1 e1 e2 h2 [] .failed
    [.released 0, .taskDone 0, .recruit []] (by rw [e3]; simp) (by simp)
  cases this

/-- Another client is disconnected before the message is handled. -/
example : ∃ (es es' : List (SysEv (Fin 2) (Fin 1) Nat)) (x y : Sys (Fin 2) (Fin 1) (Fin 2) Nat),
    Ex.line.OK ∧ SysRun Ex.line Ex.lineConf Anything es x ∧ holder x.srv.out 0 = some 7 ∧
    x.queue = [] ++ (.release 0 .success, 7) :: [] ∧ SysSteps Ex.line Ex.lineConf Anything x es' y ∧
    7 ∉ y.closed ∧ .release 0 .success ∈ y.srv.out := by
  have hx : (sysExec Ex.line Ex.lineConf (fun _ _ => true) Ex.lineRet).bind (fun r =>
      (sysExecFrom Ex.line Ex.lineConf (fun _ _ => true)
        (([.close 8, .loop [] [], .loop [] []] : List (SimpleEv (Fin 2) (Fin 1) Nat)).map SimpleEv.ev)
        r.1 []).map (fun r' => decide (holder r.1.srv.out 0 = some 7 ∧ r.1.queue = [(.release 0 .success, 7)] ∧
          7 ∉ r'.1.closed ∧ .release 0 .success ∈ r'.1.srv.out))) = some true := by
    decide +kernel
  obtain ⟨x, y, h1, h2, e⟩ := sysExec_run2 (P := Anything) (fun _ _ _ => trivial) (simple_legal _)
    (simple_legal _)
    (fun (x y : Sys (Fin 2) (Fin 1) (Fin 2) Nat) => decide (holder x.srv.out 0 = some 7 ∧ x.queue = [(.release 0 .success, 7)] ∧
      7 ∉ y.closed ∧ (.release 0 .success : Out (Fin 2) (Fin 1) Nat) ∈ y.srv.out)) hx
  obtain ⟨e1, e2, e3, e4⟩ := of_decide_eq_true e
  exact ⟨_, _, x, y, Ex.line_ok, h1, e1, e2, h2, e3, e4⟩

/-! ### C68 -/

/-- No worker hands an exception to its pool. -/
def NoReports : SysEv N T S → Prop
  | .proc p => ∀ t e, p ≠ .report t e
  | .loop k => ∀ p ∈ k.procs, ∀ t e, p ≠ .report t e
  | _ => True

/-- The start of `run_blockwise` never raises. -/
theorem C68_start (g : DGraph N T K) (c : SysConf T) : ∃ x : Sys N T K S, Sys.init g c = .ok x := by
  have key : ∀ (os : List (Out N T S)) (ps : Pools T), (∀ n w, .blockFailure n w ∉ os) →
      ∃ ps', Sys.poolOuts g c os ps = .ok ps' := by
    intro os
    induction os with
    | nil => intro ps _; exact ⟨ps, rfl⟩
    | cons o os ih =>
      intro ps h
      have h1 : ∃ ps1, Sys.poolOut g c ps o = .ok ps1 := by
        cases o with
        | blockFailure n w => exact absurd List.mem_cons_self (h n w)
        | _ => exact ⟨_, rfl⟩
      obtain ⟨ps1, h1⟩ := h1
      obtain ⟨ps2, h2⟩ := ih ps1 (fun n w hm => h n w (List.mem_cons_of_mem _ hm))
      exact ⟨ps2, by simp only [Sys.poolOuts, h1, h2]⟩
  obtain ⟨os, e, f⟩ := recruit_noFail (g := g)
    (⟨Sched.init g, [], [], [], false, false, fun _ => [], []⟩ : Server N T K S)
  obtain ⟨ps, h⟩ := key (Server.init g : Server N T K S).out (Pools.init c.cfg.served) (by
    intro n w
    rw [show (Server.init g : Server N T K S).out = [] ++ os from e]
    exact f n w)
  exact ⟨⟨Server.init g, [], 0, [], ps⟩, by simp only [Sys.init, h]⟩

/-- C68: as long as no worker hands an exception to its pool, no event of the system raises: every iteration of the
event loop runs to its end, with all reactions of the worker pools. -/
theorem C68_never_raises (hg : g.Loose) (hnd : c.cfg.served.Nodup)
    (hserved : ∀ n ∈ g.nodes, g.task n ∈ c.cfg.served) (hP : ∀ x e, P x e → NoReports e)
    (h : SysRun g c P es x) {e : SysEv N T S} (hl : LegalEv g c x e) (hp : P x e) :
    ∃ y, x.step g c e = .ok y := by
  -- the pools have no exceptions
  have hclean : ∃ pes, PoolRun c.num c.maxF (Pools.init c.cfg.served) pes x.pools ∧ ∀ t x, .report t x ∉ pes := by
    clear hl hp
    induction h with
    | init h =>
      unfold Sys.init at h
      dsimp only at h
      split at h
      · cases h
      · next ps hq =>
        cases h
        refine ⟨_, poolOuts_run _ hq, ?_⟩
        intro t x hm
        obtain ⟨o, _, ho⟩ := List.mem_filterMap.1 hm
        cases o <;> cases ho
    | @step es x x' e h0 hl hp hs ih =>
      obtain ⟨pes, hq, hn⟩ := ih
      have hnr := hP _ _ hp
      cases e with
      | arrive m s => cases hs; exact ⟨pes, hq, hn⟩
      | close s => cases hs; exact ⟨pes, hq, hn⟩
      | proc p =>
        cases hs
        refine ⟨_, hq.trans (procs_run (c := c) [p] x.pools), ?_⟩
        intro t e hm
        rcases List.mem_append.1 hm with hm | hm
        · exact hn t e hm
        · cases p with
          | exit _ _ _ => simp [procEv] at hm
          | report t' e' => exact hnr t' e' rfl
      | loop k =>
        refine ⟨_, hq.trans (loop_pools hs), ?_⟩
        intro t e hm
        rcases List.mem_append.1 hm with hm | hm
        · exact hn t e hm
        · unfold loopPoolEvs at hm
          rcases List.mem_append.1 hm with hm | hm
          · rcases List.mem_append.1 hm with hm | hm
            · obtain ⟨o, _, ho⟩ := List.mem_filterMap.1 hm
              cases o <;> cases ho
            · obtain ⟨p, hpm, ho⟩ := List.mem_map.1 hm
              cases p with
              | exit _ _ _ => cases ho
              | report t' e' => exact hnr _ hpm t' e' rfl
          · simp at hm
  cases e with
  | arrive m s => exact ⟨_, rfl⟩
  | close s => exact ⟨_, rfl⟩
  | proc p => exact ⟨_, rfl⟩
  | loop k =>
    obtain ⟨pes, hq, hn⟩ := hclean
    obtain ⟨ks, hk⟩ := h.srun
    obtain ⟨σ', hit⟩ := C29_never_raises_partial hg hk (goodTick_of h hl)
    obtain ⟨os, e1, f1⟩ := iteration_fails hit
    have hok0 := Pools.init_ok (T := T) hnd
    have hkeys0 : (Pools.init c.cfg.served).pools.map (·.1) = c.cfg.served := by
      simp [Pools.init, Function.comp_def]
    have hclean0 : Clean (Pools.init c.cfg.served) := by
      intro t p hm
      obtain ⟨t', _, e⟩ := List.mem_map.1 hm
      cases e
      rfl
    have key : ∀ (os : List (Out N T S)) (pes : List (PoolEv T)) (ps : Pools T),
        PoolRun c.num c.maxF (Pools.init c.cfg.served) pes ps → (∀ t x, .report t x ∉ pes) →
        (∀ n w, .blockFailure n w ∈ os → n ∈ g.nodes) → ∃ ps' pes', Sys.poolOuts g c os ps = .ok ps' ∧
          PoolRun c.num c.maxF (Pools.init c.cfg.served) pes' ps' ∧ ∀ t x, .report t x ∉ pes' := by
      intro os
      induction os with
      | nil => intro pes ps h1 h2 _; exact ⟨ps, pes, rfl, h1, h2⟩
      | cons o os ih =>
        intro pes ps h1 h2 h3
        have h4 : ∃ ps1, Sys.poolOut g c ps o = .ok ps1 := by
          cases o with
          | blockFailure n w =>
            have hkeys := (poolRun_keys hok0.1 h1).trans hkeys0
            have : g.task n ∈ ps.pools.map (·.1) := by
              rw [hkeys]
              exact hserved n (h3 n w List.mem_cons_self)
            obtain ⟨⟨t, p⟩, hm, rfl⟩ := List.mem_map.1 this
            exact C59_total ps hm w
          | _ => exact ⟨_, rfl⟩
        obtain ⟨ps1, h4⟩ := h4
        have h5 : PoolRun c.num c.maxF ps ([o].filterMap (poolEv g)) ps1 :=
          poolOuts_run [o] (by simp only [Sys.poolOuts, h4])
        obtain ⟨ps2, pes2, h6, h7, h8⟩ := ih _ ps1 (h1.trans h5) (by
          intro t x hm
          rcases List.mem_append.1 hm with hm | hm
          · exact h2 t x hm
          · obtain ⟨o, _, ho⟩ := List.mem_filterMap.1 hm
            cases o <;> cases ho) (fun n w hm => h3 n w (List.mem_cons_of_mem _ hm))
        exact ⟨ps2, pes2, by simp only [Sys.poolOuts, h4, h6], h7, h8⟩
    obtain ⟨ps1, pes1, h1, h2, h3⟩ := key (σ'.out.drop x.srv.out.length) pes x.pools hq hn (by
      intro n w hm
      rw [e1, List.drop_left] at hm
      obtain ⟨s, hr⟩ := f1 n w hm
      exact (goodTick_of h hl).1 _ _ hr)
    have h4 := h2.trans (procs_run (c := c) k.procs ps1)
    have h5 : Clean (k.procs.foldl Sys.procStep ps1) := by
      refine poolRun_clean hok0 ?_ h4 hclean0
      intro t e hm
      rcases List.mem_append.1 hm with hm | hm
      · exact h3 t e hm
      · obtain ⟨p, hpm, ho⟩ := List.mem_map.1 hm
        cases p with
        | exit _ _ _ => cases ho
        | report t' e' => exact hP _ _ hp _ hpm t' e' rfl
    cases hh : (k.procs.foldl Sys.procStep ps1).health with
    | error e =>
      obtain ⟨t, p, hm, he⟩ := (C43_raises _).1 e hh
      have he := he.1
      rw [h5 t p hm] at he
      cases he
    | ok ps2 =>
      exact ⟨⟨σ', x.recv.2.1, x.recv.2.2 + ((x.closedThen k).length - x.closed.length), x.closedThen k, ps2⟩,
        by simp only [Sys.step, Sys.loop, hit, h1, hh]⟩

/-- All exceptions that workers hand to their pools are of this kind. -/
def ReportsOnly (Q : PyErr → Prop) : SysEv N T S → Prop
  | .proc p => ∀ t e, p = .report t e → Q e
  | .loop k => ∀ p ∈ k.procs, ∀ t e, p = .report t e → Q e
  | _ => True

theorem SysRun.reported {Q : PyErr → Prop} (hP : ∀ x e, P x e → ReportsOnly Q e) (h : SysRun g c P es x) :
    ∃ pes, PoolRun c.num c.maxF (Pools.init c.cfg.served) pes x.pools ∧ ∀ t x, .report t x ∈ pes → Q x := by
  induction h with
  | init h =>
    unfold Sys.init at h
    dsimp only at h
    split at h
    · cases h
    · next ps hq =>
      cases h
      refine ⟨_, poolOuts_run _ hq, ?_⟩
      intro t x hm
      obtain ⟨o, _, ho⟩ := List.mem_filterMap.1 hm
      cases o <;> cases ho
  | @step es x x' e h0 hl hp hs ih =>
    obtain ⟨pes, hq, hn⟩ := ih
    have hnr := hP _ _ hp
    cases e with
    | arrive m s => cases hs; exact ⟨pes, hq, hn⟩
    | close s => cases hs; exact ⟨pes, hq, hn⟩
    | proc p =>
      cases hs
      refine ⟨_, hq.trans (procs_run (c := c) [p] x.pools), ?_⟩
      intro t e hm
      rcases List.mem_append.1 hm with hm | hm
      · exact hn t e hm
      · cases p with
        | exit _ _ _ => simp [procEv] at hm
        | report t' e' =>
          simp only [List.map_cons, List.map_nil, procEv, List.mem_singleton] at hm
          cases hm
          exact hnr _ _ rfl
    | loop k =>
      refine ⟨_, hq.trans (loop_pools hs), ?_⟩
      intro t e hm
      rcases List.mem_append.1 hm with hm | hm
      · exact hn t e hm
      · unfold loopPoolEvs at hm
        rcases List.mem_append.1 hm with hm | hm
        · rcases List.mem_append.1 hm with hm | hm
          · obtain ⟨o, _, ho⟩ := List.mem_filterMap.1 hm
            cases o <;> cases ho
          · obtain ⟨p, hpm, ho⟩ := List.mem_map.1 hm
            cases p with
            | exit _ _ _ => cases ho
            | report t' e' =>
              simp only [procEv] at ho
              cases ho
              exact hnr _ hpm _ _ rfl
        · simp at hm

/-- The second part of the claim: if a worker of a served task hands an exception to its pool, the next iteration of
the event loop raises. -/
def C68_report_statement : Prop :=
  ∀ (N T K S : Type) [DecidableEq N] [DecidableEq T] [DecidableEq K] [DecidableEq S] (g : DGraph N T K)
    (c : SysConf T) (es : List (SysEv N T S)) (x y : Sys N T K S), g.OK → c.cfg.served.Nodup →
    (∀ n ∈ g.nodes, g.task n ∈ c.cfg.served) → SysRun g c Anything es x →
    ∀ t ∈ c.cfg.served, ∀ e, x.step g c (.proc (.report t e)) = .ok y →
    ∀ k, LegalEv g c y (.loop k) → ∃ e', y.step g c (.loop k) = .error e'

/-- C68, the second part, partial.  The full claim is false (`C68_report_false`), because `check_for_errors` raises the
exception of the worker inside of a `try` statement that catches `queue.Empty`.  If no exception that is handed to a
pool is `queue.Empty`, then the claim holds. -/
theorem C68_report_raises_partial (hnd : c.cfg.served.Nodup) (hP : ∀ x e, P x e → ReportsOnly (· ≠ .queueEmpty) e)
    (h : SysRun g c P es x) {t : T} (ht : t ∈ c.cfg.served) {e : PyErr} (hne : e ≠ .queueEmpty)
    (hs : x.step g c (.proc (.report t e)) = .ok y) (k : LoopEnv N T S) :
    ∃ e', y.step g c (.loop k) = .error e' := by
  obtain ⟨pes, hq, hrep⟩ := SysRun.reported hP h
  have hok0 := Pools.init_ok (T := T) hnd
  have hok := Pools.run_ok hok0 hq
  have honly := poolRun_only hok0 hrep hq (by
    intro t p hm
    obtain ⟨t', _, e⟩ := List.mem_map.1 hm
    cases e
    intro x hx
    cases hx)
  have hkeys : x.pools.pools.map (·.1) = c.cfg.served := by
    rw [poolRun_keys hok0.1 hq]
    simp [Pools.init, Function.comp_def]
  rw [← hkeys] at ht
  obtain ⟨⟨t, p⟩, hm, rfl⟩ := List.mem_map.1 ht
  cases hs
  have hstep : poolStep c.num c.maxF x.pools (.report t e) = .ok (x.pools.report t e) := rfl
  obtain ⟨b, _, _, h2, _⟩ := Pools.step_mem' hok hstep hm
  have hok' := Pools.step_ok hok hstep
  have hhead : ∃ y, (Pools.stepFun c.num c.maxF x.pools (.report t e) t p b).1.errors.head? = some y ∧
      y ≠ .queueEmpty := by
    simp only [Pools.stepFun, Pools.reportPool, if_true]
    cases hpe : p.errors with
    | nil => exact ⟨e, rfl, hne⟩
    | cons y ys => exact ⟨y, rfl, honly t p hm y (by rw [hpe]; exact List.mem_cons_self)⟩
  obtain ⟨y, hy, hyne⟩ := hhead
  cases hl : Sys.step g c { x with pools := x.pools.report t e } (.loop k) with
  | error e' => exact ⟨e', hl⟩
  | ok z =>
    obtain ⟨ps, h3, h4, _⟩ := loop_parts hl
    have h5 := (poolOuts_run _ h3).trans (procs_run (c := c) k.procs ps)
    obtain ⟨p', h6, h7⟩ := poolRun_errors hok' (by
      intro hm
      rcases List.mem_append.1 hm with hm | hm
      · obtain ⟨o, _, ho⟩ := List.mem_filterMap.1 hm
        cases o <;> cases ho
      · obtain ⟨q, _, ho⟩ := List.mem_map.1 hm
        cases q <;> cases ho) h5 h2 hy
    obtain ⟨e', he⟩ := (C43_raises _).2 ⟨t, p', y, h6, h7, hyne⟩
    rw [h4] at he
    cases he

/-- The second part of C68 is false: a worker whose function raises `queue.Empty` hands it to the pool, and its process
ends with code 0.  The server takes the exception out of the queue and drops it.  It keeps the worker in the pool,
but there is no process any more, and none is started. -/
theorem C68_report_false : ¬ C68_report_statement := by
  intro hC
  obtain ⟨x, hx⟩ := C68_start (S := Nat) Ex.line Ex.lineConf
  have h : SysRun Ex.line Ex.lineConf Anything [] x := .init hx
  have hd : (Sys.init Ex.line Ex.lineConf : Except PyErr (Sys (Fin 2) (Fin 1) (Fin 2) Nat)).toOption.map (fun x =>
      decide (x.srv.stop = false ∧ ((x.step Ex.line Ex.lineConf (.proc (.report 0 .queueEmpty))).toOption.bind
        (fun y => (y.step Ex.line Ex.lineConf (evLoop [] [.exit 0 0 0])).toOption)).map (fun z =>
          z.pools.pools) = some [(0, ⟨[⟨0, none⟩, ⟨1, some .running⟩], []⟩)])) = some true := by
    decide +kernel
  rw [hx] at hd
  obtain ⟨h1, h2⟩ := of_decide_eq_true (Option.some.inj hd)
  obtain ⟨e', he⟩ := hC _ _ _ _ _ _ _ x _ Ex.line_ok (by decide) (by decide) h 0 (by decide) .queueEmpty rfl
    (envOf pickMin [] [.exit 0 0 0]) ⟨h1, pickMin_legal, fun _ => pickMin_legal⟩
  have he' : (Sys.step Ex.line Ex.lineConf { x with pools := x.pools.report 0 .queueEmpty } (evLoop [] [.exit 0 0 0])) =
    .error e' := he
  have h3 : ((Sys.step Ex.line Ex.lineConf { x with pools := x.pools.report 0 .queueEmpty }
    (evLoop [] [.exit 0 0 0])).toOption).map (fun z => z.pools.pools) = _ := h2
  rw [he'] at h3
  cases h3

/-- The hypotheses of `C68_report_raises_partial`: a client has a block, then the function of a worker raises. -/
example : ∃ (es : List (SysEv (Fin 2) (Fin 1) Nat)) (x y : Sys (Fin 2) (Fin 1) (Fin 2) Nat),
    Ex.lineConf.cfg.served.Nodup ∧ SysRun Ex.line Ex.lineConf (fun _ e => ReportsOnly (· ≠ .queueEmpty) e) es x ∧
    (0 : Fin 1) ∈ Ex.lineConf.cfg.served ∧ PyErr.valueError ≠ .queueEmpty ∧
    x.step Ex.line Ex.lineConf (.proc (.report 0 .valueError)) = .ok y ∧ x.srv.book ≠ [] := by
  have hx : (sysExec Ex.line Ex.lineConf (fun _ e => match e with | .loop k => k.procs.isEmpty | .proc _ => false | _ => true)
      (([.msg (.acquire 0) 7, .loop [] []] :
        List (SimpleEv (Fin 2) (Fin 1) Nat)).map SimpleEv.ev)).map (fun r => decide (r.1.srv.book ≠ [])) = some true := by
    decide +kernel
  obtain ⟨x, ns, h, _, e⟩ := sysExec_run (P := fun _ e => ReportsOnly (· ≠ .queueEmpty) e) (by
    intro x e h
    cases e with
    | loop k =>
      have : k.procs = [] := by simpa using h
      intro p hp
      rw [this] at hp
      cases hp
    | proc p => cases h
    | _ => trivial) (simple_legal _) _ hx
  exact ⟨_, x, _, by decide, h, by decide, by decide, rfl, of_decide_eq_true e⟩

/-- Client 7 is disconnected, a worker process dies, another client reports a failure. -/
example : ∃ (es : List (SysEv (Fin 2) (Fin 1) Nat)) (x : Sys (Fin 2) (Fin 1) (Fin 2) Nat),
    Ex.line.OK ∧ Ex.lineConf.cfg.served.Nodup ∧ (∀ n ∈ Ex.line.nodes, Ex.line.task n ∈ Ex.lineConf.cfg.served) ∧
    SysRun Ex.line Ex.lineConf (fun _ e => NoReports e) es x ∧
    LegalEv Ex.line Ex.lineConf x (evLoop [7] [.exit 0 0 1] : SysEv (Fin 2) (Fin 1) Nat) ∧
    NoReports (evLoop [7] [.exit 0 0 1] : SysEv (Fin 2) (Fin 1) Nat) ∧ x.queue = [(.blockFailed 0 1, 7)] := by
  have hx : (sysExec Ex.line Ex.lineConf (fun _ e => match e with | .loop k => k.procs.isEmpty | .proc _ => false | _ => true)
      (([.msg (.acquire 0) 7, .loop [] [], .msg (.blockFailed 0 1) 7] :
        List (SimpleEv (Fin 2) (Fin 1) Nat)).map SimpleEv.ev)).map (fun r => decide (r.1.srv.stop = false ∧
      r.1.queue = [(.blockFailed 0 1, 7)])) = some true := by
    decide +kernel
  obtain ⟨x, ns, h, _, e⟩ := sysExec_run (P := fun _ e => NoReports e) (by
    intro x e h
    cases e with
    | loop k =>
      have : k.procs = [] := by simpa using h
      intro p hp
      rw [this] at hp
      cases hp
    | proc p => cases h
    | _ => trivial) (simple_legal _) _ hx
  obtain ⟨e1, e2⟩ := of_decide_eq_true e
  refine ⟨_, x, Ex.line_ok, by decide, by decide, h, ⟨e1, pickMin_legal, fun _ => pickMin_legal⟩, ?_, e2⟩
  intro p hp t e hc
  rw [List.mem_singleton.1 hp] at hc
  cases hc

end Verif
