import Verif.Props.TaskArgs
import Verif.Props.SystemWork
import Verif.Props.StarvedServers

/-! # C67 and C93 for graphs with blocks that depend on nothing although their task depends on others -/

set_option linter.unusedSectionVars false

namespace Verif

open Spec

section C93
variable {N T K : Type} [DecidableEq N] [DecidableEq T] [DecidableEq K] {g : DGraph N T K} {kind : T → CheckKind}
  {log : List (CheckEv N T)} {st : Sched N T K}

/-- C93, as `C93_acquired`. -/
theorem C93_loose_acquired (hg : g.Loose) (h : CheckRun g kind log st) {t : T} {pre : Nat → N → Check} {skips : List N}
    {r : Option N} (hm : .acquired t pre skips r ∈ log) :
    (∀ i x, skips[i]? = some x → (kind t).call pre i x = .accept ∧ g.task x = t) ∧
    ∀ n, r = some n → (kind t).call pre skips.length n ≠ .accept := by
  induction h with
  | init => cases hm
  | acquire pre' t' h0 hs ih =>
    rcases List.mem_append.1 hm with hm | hm
    · exact ih hm
    · rw [List.mem_singleton] at hm
      cases hm
      obtain ⟨skips', r', st', e, _, h1, h2⟩ := C25_loose hg h0.run ((kind t).call pre) t
      rw [hs] at e
      cases e
      refine ⟨fun i x hx => ⟨(h1 i x hx).1, (h1 i x hx).2.1⟩, fun n hn hc => ?_⟩
      rcases (h2 n hn).1 with h3 | h3 <;> rw [h3] at hc <;> cases hc
  | release n post good pick h0 hh hp hs ih =>
    rcases List.mem_append.1 hm with hm | hm
    · exact ih hm
    · rw [List.mem_singleton] at hm
      cases hm

/-- C93, first half, partial, as `C93_pre_partial`: if no task is given a tuple of functions, the check before a block is
handed out works as documented.  Missing: tuples, for which it does not (`C93_pre_false`). -/
theorem C93_loose_pre_partial (hg : g.Loose) (hk : ∀ t, kind t ≠ .pair) (h : CheckRun g kind log st) :
    ∀ e ∈ log, PreOK kind e := by
  intro e he
  cases e with
  | returned n post good => trivial
  | acquired t pre skips r =>
    obtain ⟨h1, h2⟩ := C93_loose_acquired hg h he
    constructor
    · intro hn
      rw [hn] at h1
      cases skips with
      | nil => rfl
      | cons x xs => exact absurd (h1 0 x rfl).1 (by simp [CheckKind.call])
    · intro hn
      have hf : kind t = .fn := by
        cases hkt : kind t with
        | none => exact absurd hkt hn
        | fn => rfl
        | pair => exact absurd hkt (hk t)
      rw [hf] at h1 h2
      exact ⟨fun i x hx => (h1 i x hx).1, h2⟩

/-- C93, as `C93_pair`: if a task is given a tuple of functions, none of its blocks is ever skipped, whatever the first function says: all
that are completed were processed. -/
theorem C93_loose_pair (hg : g.Loose) (h : CheckRun g kind log st) {n : N} (hn : kind (g.task n) = .pair) :
    .skip n ∉ log.flatMap CheckEv.evs ∧
    (Done (log.flatMap CheckEv.evs) n → ∃ post, .returned n post true ∈ log) := by
  have hs : .skip n ∉ log.flatMap CheckEv.evs := by
    intro hm
    obtain ⟨e, he, hm⟩ := List.mem_flatMap.1 hm
    cases e with
    | returned n' post good => cases good <;> simp [CheckEv.evs] at hm
    | acquired t pre skips r =>
      have hx : n ∈ skips := by
        simp only [CheckEv.evs, acquireEvents, List.mem_append, List.mem_map] at hm
        rcases hm with ⟨x, hx, e⟩ | hm
        · cases e; exact hx
        · cases r <;> simp at hm
      obtain ⟨i, hi⟩ := List.getElem?_of_mem hx
      obtain ⟨h1, h2⟩ := (C93_loose_acquired hg h he).1 i n hi
      rw [← h2, hn] at h1
      cases h1
  refine ⟨hs, ?_⟩
  rintro (hd | hd)
  · obtain ⟨e, he, hm⟩ := List.mem_flatMap.1 hd
    cases e with
    | acquired t pre skips r => cases r <;> simp [CheckEv.evs, acquireEvents] at hm
    | returned n' post good =>
      cases good with
      | false => simp [CheckEv.evs] at hm
      | true =>
        simp only [CheckEv.evs, List.mem_singleton] at hm
        cases hm
        exact ⟨post, he⟩
  · exact absurd hd hs

end C93

section C67
variable {N T K S : Type} [DecidableEq N] [DecidableEq T] [DecidableEq K] [DecidableEq S]
  {g : DGraph N T K} {c : SysConf T} {P : Sys N T K S → SysEv N T S → Prop} {es : List (SysEv N T S)}
  {x y : Sys N T K S}

/-- C67, partial, as `C67_ready_partial`: as long as nothing was skipped, a task with a ready block that is not starved
has a running worker. -/
theorem C67_loose_ready_partial (hg : g.Loose) (hnd : c.cfg.served.Nodup) (hserved : ∀ n ∈ g.nodes, g.task n ∈ c.cfg.served)
    (hP : ∀ x e, P x e → Coop g x e) (h : SysRun g c P es x) {k : LoopEnv N T S} (hl : LegalEv g c x (.loop k))
    (hp : P x (.loop k)) (hs : x.step g c (.loop k) = .ok y) (hskip : ∀ n, .skip n ∉ y.srv.out) {n : N}
    (hnum : 0 < c.num (g.task n)) (hr : Ready g (evs y.srv.out) n)
    (hst : ¬ Starved g n) : ∃ id, Running y.pools (g.task n) id := by
  have h' := SysRun.step _ h hl hp hs
  obtain ⟨ks, hks⟩ := h'.srun
  refine C67_workers_partial hg hnd hP h hl hp hs (hserved n hr.1) hnum (C53_loose_no_skips hg hks hskip hr hst) ?_
  intro hf
  obtain ⟨_, h2, h3, h4⟩ := (C19_loose_disjoint_partial hg (hks.inv hg).run n).1 hr hst
  rcases hf n hr.1 rfl with h5 | h5 | h5
  · exact h2 h5
  · exact h3 h5
  · exact h4 h5

end C67

/-- Block 0 of `barren`, whose block 2 is starved, is handed out: its check function rejects it. -/
example : ∃ st, Ex.barren.Loose ∧ Starved Ex.barren 2 ∧
    CheckRun Ex.barren (fun _ => .fn) [.acquired 0 (fun _ _ => .reject) [] (some 0)] st := by
  have h0 : CheckRun Ex.barren (fun _ : Fin 3 => .fn) [] (Sched.init Ex.barren) := .init
  have hx : ((Sched.init Ex.barren).acquireBlock Ex.barren (CheckKind.fn.call (fun _ _ => .reject)) 0).toOption.map
      (fun r => (r.1, r.2.1)) = some ([], some 0) := by decide +kernel
  cases hs : (Sched.init Ex.barren).acquireBlock Ex.barren (CheckKind.fn.call (fun _ _ => .reject)) 0 with
  | error e => rw [hs] at hx; cases hx
  | ok r =>
    rw [hs] at hx
    obtain ⟨sk, r, st⟩ := r
    cases hx
    exact ⟨st, Ex.barren_loose, ⟨List.mem_finRange _, rfl, by decide⟩, h0.acquire _ 0 hs⟩

end Verif
