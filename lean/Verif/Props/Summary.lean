import Verif.Proofs.Summary
import Verif.Props.SystemMonitor
import Verif.Props.Interrupt
import Verif.Spec.SerialExec

/-! # C100: the execution summary -/

namespace Verif

open Spec

variable {N T K S : Type} [DecidableEq N] [DecidableEq T] [DecidableEq K] [DecidableEq S]
  {g : DGraph N T K} {c : SysConf T} {P : Sys N T K S → SysEv N T S → Prop} {es : List (SysEv N T S)}
  {x : Sys N T K S}

/-- What is to be printed about task `t` after the history `tr`, if the failures `fs` were reported about its blocks:
the numbers of its blocks, of those that completed, were skipped and failed for good; at most 100 failures and how many
more there are; and that all went well iff all blocks completed. -/
structure Spec.RightReport (g : DGraph N T K) (tr : List (Ev N)) (t : T) (fs : List (N × Nat))
    (r : Monitor.Report N) : Prop where
  total : r.total = cnt g t (fun _ => True)
  completed : r.completed = cnt g t (Done tr)
  skipped : r.skipped = cnt g t (fun n => .skip n ∈ tr)
  failed : r.failed = cnt g t (Dead g tr)
  listed : r.failures <+: fs ∧ (r.failures.length = 100 ∨ r.failures = fs)
  more : r.failures.length + r.more = fs.length
  success : r.success = true ↔ ∀ n ∈ g.nodes, g.task n = t → Done tr n

omit [DecidableEq N] [DecidableEq T] [DecidableEq K] in
private theorem total_iff {tr : List (Ev N)} (t : T) :
    cnt g t (Done tr) = cnt g t (fun _ => True) ↔ ∀ n ∈ g.nodes, g.task n = t → Done tr n := by
  have e : cnt g t (fun n => Done tr n ∨ ¬ Done tr n) = cnt g t (Done tr) + cnt g t (fun n => ¬ Done tr n) :=
    cnt_or (fun n hn => not_not.2 hn)
  have e2 : cnt g t (fun n => Done tr n ∨ ¬ Done tr n) = cnt g t (fun _ => True) :=
    cnt_congr (fun n _ _ => iff_of_true (em _) trivial)
  have e3 := cnt_eq_zero (g := g) (t := t) (P := fun n => ¬ Done tr n)
  simp only [not_not] at e3
  rw [← e3]
  omega

private theorem right_of_run {tr : List (Ev N)} {st : Sched N T K} (hg : g.OK) (h : Run g tr st)
    {now : String → TState} {u : String} {t : T} (hnow : now u = st.states t) {m : Monitor N}
    {s : Summary N} (hs : m.sums u = some s) {r : Monitor.Report N} (hr : m.report now u = some r) :
    RightReport g tr t s.failures r ∧ r.orphaned = (st.states t).orphaned := by
  obtain ⟨_, _, h3, h4, h5, h6⟩ := C19_counters_partial hg h t
  unfold Monitor.report at hr
  rw [hs] at hr
  cases hr
  refine ⟨⟨?_, ?_, ?_, ?_, ⟨List.take_prefix _ _, ?_⟩, ?_, ?_⟩, by rw [hnow]⟩
  · rw [hnow]; exact h6
  · rw [hnow]; exact h3
  · rw [hnow]; exact h4
  · rw [hnow]; exact h5
  · simp only [Monitor.listed, List.length_take]
    by_cases hl : 100 ≤ s.failures.length
    · left; omega
    · right; exact List.take_of_length_le (by omega)
  · simp only [Monitor.listed, List.length_take]
    split_ifs <;> omega
  · simp only [Monitor.allProcessed, beq_iff_eq, hnow, h3, h6]
    exact total_iff t

omit [DecidableEq N] in
private theorem sums_of_report {m : Monitor N} {now : String → TState} {u : String} {r : Monitor.Report N}
    (hr : m.report now u = some r) : ∃ s, m.sums u = some s := by
  unfold Monitor.report at hr
  cases hs : m.sums u with
  | none => rw [hs] at hr; cases hr
  | some s => exact ⟨s, rfl⟩

/-! ### The server -/

/-- C100.  The summary lists exactly the tasks that were announced as started or as done. -/
theorem C100_listed (hg : g.Loose) (hnd : c.cfg.served.Nodup) (hP : ∀ x e, P x e → FromWorkers g x e)
    (h : SysRun g c P es x) (name : T → String) (hname : Function.Injective name) (st : Nat → TState)
    (now : String → TState) (t : T) :
    ∃ m, (Monitor.init : Monitor N).run (monEvs g name st x.srv.out) = .ok m ∧
      (m.report now (name t) ≠ none ↔ .taskStart t ∈ x.srv.out ∨ .taskDone t ∈ x.srv.out) := by
  obtain ⟨m, hm⟩ := C75_never_raises hg hnd hP h name st
  refine ⟨m, hm, ?_⟩
  rw [← monEvs_makes (g := g) name hname st x.srv.out t]
  have := Monitor.run_sums _ hm (name t)
  rw [or_iff_right (by simp [Monitor.init])] at this
  rw [← this]
  unfold Monitor.report
  cases m.sums (name t) <;> simp

/-- C100.  No task is missing: the summary lists every task of which a block was sent to a client, was skipped, came
back or was reported as failed; and when the server has stopped by itself, all tasks. -/
theorem C100_nothing_missing (hg : g.Loose) (hnd : c.cfg.served.Nodup) (hP : ∀ x e, P x e → FromWorkers g x e)
    (h : SysRun g c P es x) (name : T → String) (hname : Function.Injective name) (st : Nat → TState)
    (now : String → TState) :
    ∃ m, (Monitor.init : Monitor N).run (monEvs g name st x.srv.out) = .ok m ∧
      (∀ n, (∃ s, .send s n ∈ x.srv.out) ∨ .skip n ∈ x.srv.out ∨ (∃ w, .blockFailure n w ∈ x.srv.out) ∨
        Done (evs x.srv.out) n ∨ Dead g (evs x.srv.out) n → m.report now (name (g.task n)) ≠ none) ∧
      (x.srv.stop = true → ∀ t ∈ g.tasks, m.report now (name t) ≠ none) := by
  obtain ⟨m, hm⟩ := C75_never_raises hg hnd hP h name st
  have hl : ∀ t, m.report now (name t) ≠ none ↔ .taskStart t ∈ x.srv.out ∨ .taskDone t ∈ x.srv.out := by
    intro t
    obtain ⟨m', hm', hi⟩ := C100_listed hg hnd hP h name hname st now t
    rw [hm] at hm'
    cases hm'
    exact hi
  have hmi := SysRun.monInv hg hnd hP h
  obtain ⟨ks, hr⟩ := h.srun
  have hev : ∀ e : Ev N, e ∈ evs x.srv.out → ∃ o ∈ x.srv.out, toEv o = some e := fun e he => List.mem_filterMap.1 he
  have hskip : ∀ n, .skip n ∈ evs x.srv.out → .skip n ∈ x.srv.out := by
    intro n hn
    obtain ⟨o, ho, he⟩ := hev _ hn
    cases o with
    | skip m => cases he; exact ho
    | release m s => cases s <;> cases he
    | _ => cases he
  have hhand : ∀ n, .hand n ∈ evs x.srv.out → ∃ s, .send s n ∈ x.srv.out := by
    intro n hn
    obtain ⟨o, ho, he⟩ := hev _ hn
    cases o with
    | send s m => cases he; exact ⟨s, ho⟩
    | release m s => cases s <;> cases he
    | _ => cases he
  refine ⟨m, hm, ?_, ?_⟩
  · intro n hn
    refine (hl _).2 (Or.inl ?_)
    have hleg := (loose_legal hg (hr.inv hg).run)
    have hheld : ∀ pre post : List (Ev N), evs x.srv.out = pre ++ post → Held pre n →
        .taskStart (g.task n) ∈ x.srv.out := by
      intro pre post e hh
      have hm : Ev.hand n ∈ pre := by
        rw [← List.count_pos_iff]
        unfold Held at hh
        omega
      obtain ⟨s, hs⟩ := hhand n (by rw [e]; exact List.mem_append_left _ hm)
      exact hmi.sent s n hs
    rcases hn with ⟨s, hs⟩ | hs | ⟨w, hw⟩ | hd | hd
    · exact hmi.sent s n hs
    · exact hmi.skipped n hs
    · obtain ⟨pre, post, e⟩ := List.append_of_mem hw
      rw [e]
      exact List.mem_append_left _ (hmi.order pre post n w e)
    · rcases hd with hd | hd
      · obtain ⟨pre, post, e⟩ := List.append_of_mem hd
        exact hheld pre _ e (hleg pre (.good n) post e)
      · exact hmi.skipped n (hskip n hd)
    · obtain ⟨pre, post, e⟩ := List.append_of_mem hd.1
      exact hheld pre _ e (hleg pre (.bad n) post e)
  · intro hs t ht
    refine (hl t).2 (Or.inr ?_)
    have := (C34_announced_once hg hr t).2.2.2.2 (hr.stop_finished hg hs t ht)
    exact List.count_pos_iff.1 (by omega)

/-- C100.  Whenever the server ends, by itself or by an interrupt, what the summary says about a task is right: the
numbers of blocks, of completed, skipped and failed blocks, the failures that were reported about its blocks in their
order, and whether all blocks were processed; the number of orphans is not too small, and zero iff there are none. -/
theorem C100_report (hg : g.OK) (hnd : c.cfg.served.Nodup) (hP : ∀ x e, P x e → FromWorkers g x e)
    (h : SysRun g c P es x) (name : T → String) (hname : Function.Injective name) (st : Nat → TState)
    {now : String → TState} {t : T} (hnow : now (name t) = x.srv.sched.states t) {m : Monitor N}
    (hm : (Monitor.init : Monitor N).run (monEvs g name st x.srv.out) = .ok m) {r : Monitor.Report N}
    (hr : m.report now (name t) = some r) :
    RightReport g (evs x.srv.out) t (reported g t x.srv.out) r ∧
    cnt g t (Orphan g (evs x.srv.out)) ≤ r.orphaned ∧
    (r.orphaned = 0 ↔ ∀ n ∈ g.nodes, g.task n = t → ¬ Orphan g (evs x.srv.out) n) := by
  obtain ⟨ks, hs⟩ := h.srun
  obtain ⟨s, e⟩ := sums_of_report hr
  have hrun := (hs.inv hg).run
  have hf := mon_failures name hname st x.srv.out (SysRun.monInv hg hnd hP h).order
    (fun t => (C34_announced_once hg hs t).1) hm t s e
  obtain ⟨h1, h2⟩ := right_of_run hg hrun hnow e hr
  rw [hf] at h1
  rw [h2]
  exact ⟨h1, C22_loose_orphan_count_lower hg hrun t⟩

/-- C100, partial.  The full claim has no `OrphanExact` hypothesis and is false (`C100_false`): the number of orphans is
right. -/
theorem C100_orphans_partial (hg : g.OK) (h : SysRun g c P es x) (hx : OrphanExact g (evs x.srv.out))
    {now : String → TState} {t : T} {u : String} (hnow : now u = x.srv.sched.states t) {m : Monitor N}
    {r : Monitor.Report N} (hr : m.report now u = some r) : r.orphaned = cnt g t (Orphan g (evs x.srv.out)) := by
  obtain ⟨ks, hs⟩ := h.srun
  obtain ⟨s, e⟩ := sums_of_report hr
  have hrun := (hs.inv hg).run
  rw [(right_of_run hg hrun hnow e hr).2]
  exact C22_loose_orphan_count_partial hg hrun hx t

omit [DecidableEq N] in
/-- C100: when the server exits, no bar stays open. -/
theorem C100_bars_closed (m : Monitor N) (u : String) (b : Bar) (h : m.onServerExit.bars u = some b) :
    b.closed = true := by
  unfold Monitor.onServerExit at h
  dsimp only at h
  split at h
  · cases h
  · cases h; rfl

namespace Ex

/-- Four workers, restarted after more than three failures. -/
def fanConf : SysConf (Fin 1) := ⟨⟨[0], fun _ => none⟩, fun _ => 4, 3⟩

/-- Three clients get the blocks `0`, `1`, `2`; `0` succeeds, `1` fails, the first client gets `3` and succeeds, `2`
fails. -/
def fanEvents : List (SysEv (Fin 5) (Fin 1) Nat) :=
  ([.msg (.acquire 0) 10, .loop [] [], .msg (.acquire 0) 11, .loop [] [], .msg (.acquire 0) 12, .loop [] [],
    .msg (.release 0 .success) 10, .loop [] [], .msg (.blockFailed 1 5) 11, .loop [] [], .msg (.acquire 0) 10,
    .loop [] [], .msg (.release 3 .success) 10, .loop [] [], .msg (.blockFailed 2 6) 12, .loop [] []] :
    List (SimpleEv (Fin 5) (Fin 1) Nat)).map SimpleEv.ev

/-- Requests come after the task was started, failures are reported about blocks that were sent. -/
def fromSent {k j : Nat} (x : Sys (Fin k) (Fin j) (Fin k) Nat) : SysEv (Fin k) (Fin j) Nat → Bool
  | .arrive (.acquire t) _ => decide (.taskStart t ∈ x.srv.out)
  | .arrive (.blockFailed n _) s => decide (.send s n ∈ x.srv.out)
  | _ => true

theorem fromSent_workers {k j : Nat} (g : DGraph (Fin k) (Fin j) (Fin k)) (x : Sys (Fin k) (Fin j) (Fin k) Nat)
    (e : SysEv (Fin k) (Fin j) Nat) (h : fromSent x e = true) : FromWorkers g x e := by
  cases e with
  | arrive m s =>
    cases m with
    | acquire t => exact Or.inl (of_decide_eq_true h)
    | blockFailed n w => exact Or.inl ⟨s, of_decide_eq_true h⟩
    | _ => trivial
  | _ => trivial

end Ex

/-- C100 is false: in this run the summary of a task with five blocks says that two completed, two failed and two are
orphaned; one is. -/
theorem C100_false : ∃ (es : List (SysEv (Fin 5) (Fin 1) Nat)) (x : Sys (Fin 5) (Fin 1) (Fin 5) Nat),
    Ex.fan.OK ∧ SysRun Ex.fan Ex.fanConf (FromWorkers Ex.fan) es x ∧
    ∀ (name : Fin 1 → String) (st : Nat → TState) (now : String → TState),
      now (name 0) = x.srv.sched.states 0 → ∃ m r,
      (Monitor.init : Monitor (Fin 5)).run (monEvs Ex.fan name st x.srv.out) = .ok m ∧
      m.report now (name 0) = some r ∧ r.failures = [(1, 5), (2, 6)] ∧
      (r.total, r.completed, r.failed, r.orphaned) = (5, 2, 2, 2) ∧
      r.orphaned ≠ cnt Ex.fan 0 (Orphan Ex.fan (evs x.srv.out)) := by
  have hx : (sysExec Ex.fan Ex.fanConf Ex.fromSent Ex.fanEvents).map (fun r =>
      decide (.taskStart 0 ∈ r.1.srv.out ∧ reported Ex.fan 0 r.1.srv.out = [(1, 5), (2, 6)] ∧
        ((r.1.srv.sched.states 0).total, (r.1.srv.sched.states 0).completed, (r.1.srv.sched.states 0).failed,
          (r.1.srv.sched.states 0).orphaned) = (5, 2, 2, 2))) = some true := by
    decide +kernel
  obtain ⟨x, ns, h, _, e⟩ := sysExec_run (Ex.fromSent_workers Ex.fan) (simple_legal _) _ hx
  obtain ⟨e1, e2, e3⟩ := of_decide_eq_true e
  refine ⟨_, x, Ex.fan_ok, h, ?_⟩
  intro name st now hnow
  have hname : Function.Injective name := fun a b _ => Subsingleton.elim a b
  have hnd : Ex.fanConf.cfg.served.Nodup := by decide
  obtain ⟨m, hm, hl⟩ := C100_listed Ex.fan_ok hnd (fun _ _ h => h) h name hname st now 0
  obtain ⟨r, hr⟩ := Option.ne_none_iff_exists'.1 (hl.2 (Or.inl e1))
  have hrep := (C100_report Ex.fan_ok hnd (fun _ _ h => h) h name hname st hnow hm hr).1
  have hnum : (r.total, r.completed, r.failed, r.orphaned) = (5, 2, 2, 2) := by
    obtain ⟨s, hs⟩ := sums_of_report hr
    unfold Monitor.report at hr
    rw [hs] at hr
    cases hr
    rw [hnow]
    exact e3
  refine ⟨m, r, hm, hr, ?_, hnum, ?_⟩
  · have h1 := hrep.listed
    rw [e2] at h1
    rcases h1.2 with h2 | h2
    · have := h1.1.length_le
      rw [h2] at this
      simp at this
    · exact h2
  · intro hc
    obtain ⟨ks, hs⟩ := h.srun
    have hrun := (hs.inv Ex.fan_ok).run
    have hf := finished_count Ex.fan_ok hrun 0
    have h0 := cnt_nonneg (g := Ex.fan) 0
      (fun n => ¬ (Done (evs x.srv.out) n ∨ Dead Ex.fan (evs x.srv.out) n ∨ Orphan Ex.fan (evs x.srv.out) n))
    simp only [Prod.mk.injEq] at e3 hnum
    rw [← hc] at hf
    omega

/-- With the last failure left out, the hypothesis of `C100_orphans_partial` holds; one block is an orphan. -/
example : ∃ (es : List (SysEv (Fin 5) (Fin 1) Nat)) (x : Sys (Fin 5) (Fin 1) (Fin 5) Nat),
    Ex.fan.OK ∧ Ex.fanConf.cfg.served.Nodup ∧ SysRun Ex.fan Ex.fanConf (FromWorkers Ex.fan) es x ∧
    OrphanExact Ex.fan (evs x.srv.out) ∧ .taskStart 0 ∈ x.srv.out ∧ (x.srv.sched.states 0).orphaned = 1 := by
  have hx : (sysExec Ex.fan Ex.fanConf Ex.fromSent (Ex.fanEvents.take 14)).map (fun r =>
      decide (.taskStart 0 ∈ r.1.srv.out ∧ (r.1.srv.sched.states 0).orphaned = 1 ∧
        ∀ f, Dead Ex.fan (evs r.1.srv.out) f ↔ f = 1)) = some true := by
    decide +kernel
  obtain ⟨x, ns, h, _, e⟩ := sysExec_run (Ex.fromSent_workers Ex.fan)
    (fun e he => simple_legal _ e (List.mem_of_mem_take he)) _ hx
  obtain ⟨e1, e2, e3⟩ := of_decide_eq_true e
  refine ⟨_, x, Ex.fan_ok, by decide, h, exact_of_one ?_, e1, e2⟩
  intro n _ f f' h1 h2 _ _
  rw [(e3 f).1 h1, (e3 f').1 h2]

/-! ### The serial server -/

variable {served : List T} {ks : List (SerTick N T)} {ρ : Serial N T K}

/-- C100, partial.  The full claim lists every task of which a block was skipped as well, and all failures; both are
false of the serial server (`C100_serial_skipped`, `C100_serial_failures`): it lists exactly the tasks of which it
processed a block, the numbers are right, and it lists no failures. -/
theorem C100_serial_partial (hg : g.OK) (h : SerRun g served ks ρ) (name : T → String)
    (hname : Function.Injective name) (st : Nat → TState) {now : String → TState}
    (hnow : ∀ t, now (name t) = ρ.sched.states t) :
    ∃ m, (Monitor.init : Monitor N).run (serMonEvs name st ρ.out) = .ok m ∧ ∀ t,
      (m.report now (name t) ≠ none ↔ ∃ n, .call n ∈ ρ.out ∧ g.task n = t) ∧
      ∀ r, m.report now (name t) = some r → RightReport g (serEvs ρ.out) t [] r ∧
        cnt g t (Orphan g (serEvs ρ.out)) ≤ r.orphaned ∧
        (OrphanExact g (serEvs ρ.out) → r.orphaned = cnt g t (Orphan g (serEvs ρ.out))) := by
  obtain ⟨m, hm, hq⟩ := Monitor.run_quiet (serMonEvs name st ρ.out) (m := Monitor.init)
    (fun t b w => serMonEvs_quiet name st ρ.out t b w) (fun u x hx => by cases hx)
  have hrun := (h.inv hg).run
  refine ⟨m, hm, fun t => ⟨?_, ?_⟩⟩
  · have h1 := Monitor.run_sums _ hm (name t)
    rw [or_iff_right (by simp [Monitor.init]), serMonEvs_makes name hname st ρ.out t] at h1
    obtain ⟨_, a2, a3⟩ := SerRun.announced hg h
    rw [← a2 t]
    have h2 : m.report now (name t) ≠ none ↔ m.sums (name t) ≠ none := by
      unfold Monitor.report
      cases m.sums (name t) <;> simp
    rw [h2, h1]
    exact ⟨fun h => h.elim id (a3 t), Or.inl⟩
  · intro r hr
    obtain ⟨s, e⟩ := sums_of_report hr
    obtain ⟨h1, h2⟩ := right_of_run hg hrun (hnow t) e hr
    rw [hq _ _ e] at h1
    rw [h2]
    exact ⟨h1, (C22_loose_orphan_count_lower hg hrun t).1, fun hx => C22_loose_orphan_count_partial hg hrun hx t⟩

/-- A task all of whose blocks are skipped does not occur in the summary of the serial server, not even when the run is
over. -/
theorem C100_serial_skipped : ∃ (ks : List (SerTick (Fin 1) (Fin 1))) (ρ : Serial (Fin 1) (Fin 1) (Fin 1)),
    Ex.one.OK ∧ SerRun Ex.one [0] ks ρ ∧ ρ.ended = true ∧ .skip 0 ∈ ρ.out ∧
    (∀ n, Done (serEvs ρ.out) n) ∧ ∀ (name : Fin 1 → String) (st : Nat → TState) (now : String → TState),
      ∃ m, (Monitor.init : Monitor (Fin 1)).run (serMonEvs name st ρ.out) = .ok m ∧ ∀ u, m.report now u = none := by
  have hx : (serExec Ex.one [0] [serTick pickMin [0]]).map (fun ρ => decide (ρ.ended = true ∧
      ρ.out = [.skip 0, .exit])) = some true := by decide +kernel
  obtain ⟨ρ, h, e⟩ := serExec_run (by
    intro k hk
    rw [List.mem_singleton.1 hk]
    exact pickMin_legal) _ hx
  obtain ⟨e1, e2⟩ := of_decide_eq_true e
  refine ⟨_, ρ, Ex.one_ok, h, e1, by rw [e2]; decide, ?_, ?_⟩
  · intro n
    rw [e2, Subsingleton.elim n 0]
    decide
  · intro name st now
    rw [e2]
    exact ⟨Monitor.init, rfl, fun u => rfl⟩

/-- A block fails for good; the summary of the serial server counts it and lists no failure. -/
theorem C100_serial_failures : ∃ (ks : List (SerTick (Fin 5) (Fin 1))) (ρ : Serial (Fin 5) (Fin 1) (Fin 5)),
    Ex.fan.OK ∧ SerRun Ex.fan [0] ks ρ ∧ ρ.ended = true ∧ Dead Ex.fan (serEvs ρ.out) 1 ∧
    ∀ (name : Fin 1 → String) (st : Nat → TState) (now : String → TState),
      (∀ t, now (name t) = ρ.sched.states t) → ∃ m r,
      (Monitor.init : Monitor (Fin 5)).run (serMonEvs name st ρ.out) = .ok m ∧
      m.report now (name 0) = some r ∧ r.failed = 1 ∧ r.failures = [] := by
  have hx : (serExec Ex.fan [0] (List.replicate 4 (serTick pickMin [] [1]))).map (fun ρ =>
      decide (ρ.ended = true ∧ Dead Ex.fan (serEvs ρ.out) 1 ∧ .call 1 ∈ ρ.out ∧ (ρ.sched.states 0).failed = 1)) =
        some true := by decide +kernel
  obtain ⟨ρ, h, e⟩ := serExec_run (by
    intro k hk
    rw [List.eq_of_mem_replicate hk]
    exact pickMin_legal) _ hx
  obtain ⟨e1, e2, e3, e4⟩ := of_decide_eq_true e
  refine ⟨_, ρ, Ex.fan_ok, h, e1, e2, ?_⟩
  intro name st now hnow
  obtain ⟨m, hm, hl⟩ := C100_serial_partial Ex.fan_ok h name (fun a b _ => Subsingleton.elim a b) st hnow
  obtain ⟨r, hr⟩ := Option.ne_none_iff_exists'.1 ((hl 0).1.2 ⟨1, e3, rfl⟩)
  have h1 := ((hl 0).2 r hr).1
  refine ⟨m, r, hm, hr, ?_, ?_⟩
  · obtain ⟨s, hs⟩ := sums_of_report hr
    unfold Monitor.report at hr
    rw [hs] at hr
    cases hr
    rw [hnow 0]
    exact e4
  · exact List.prefix_nil.1 h1.listed.1

end Verif
