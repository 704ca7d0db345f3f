import Verif.Spec.TaskArgs
import Verif.Props.Outcome

/-! # The function arguments of a task: C93, C94 -/

namespace Verif

open Spec

/-! ### C93 -/

variable {N T K : Type} [DecidableEq N] [DecidableEq T] [DecidableEq K] {g : DGraph N T K} {kind : T → CheckKind}
  {log : List (CheckEv N T)} {st : Sched N T K}

theorem Spec.CheckRun.run (h : CheckRun g kind log st) : Run g (log.flatMap CheckEv.evs) st := by
  induction h with
  | init => exact .init
  | acquire pre t _ hs ih =>
    rw [List.flatMap_append]
    simpa [CheckEv.evs] using Run.acquire _ t ih hs
  | release n post good pick _ hh hp hs ih =>
    rw [List.flatMap_append]
    cases good with
    | true => simpa [CheckEv.evs] using Run.good pick ih hh hp hs
    | false => simpa [CheckEv.evs] using Run.bad pick ih hh hp hs

/-- The first half of the claim: the check before a block is handed out. -/
def C93_pre_statement : Prop :=
  ∀ (N T K : Type) [DecidableEq N] [DecidableEq T] [DecidableEq K] (g : DGraph N T K) (kind : T → CheckKind)
    (log : List (CheckEv N T)) (st : Sched N T K), g.OK → CheckRun g kind log st → ∀ e ∈ log, PreOK kind e

/-- The second half: a block of a task with check function is completed only if the check function accepted it, before
it was handed out or after it was processed. -/
def C93_post_statement : Prop :=
  ∀ (N T K : Type) [DecidableEq N] [DecidableEq T] [DecidableEq K] (g : DGraph N T K) (kind : T → CheckKind)
    (log : List (CheckEv N T)) (st : Sched N T K), g.OK → CheckRun g kind log st → ∀ n ∈ g.nodes,
    kind (g.task n) ≠ .none → Done (log.flatMap CheckEv.evs) n →
    .skip n ∈ log.flatMap CheckEv.evs ∨ PostAccepted log n

theorem C93_acquired (hg : g.OK) (h : CheckRun g kind log st) {t : T} {pre : Nat → N → Check} {skips : List N}
    {r : Option N} (hm : .acquired t pre skips r ∈ log) :
    (∀ i x, skips[i]? = some x → (kind t).call pre i x = .accept ∧ g.task x = t) ∧
    ∀ n, r = some n → (kind t).call pre skips.length n ≠ .accept := by
  induction h with
  | init => cases hm
  | acquire pre' t' h0 hs ih =>
    rcases List.mem_append.1 hm with hm | hm
    · exact ih hm
    · rw [List.mem_singleton] at hm
      cases hm
      obtain ⟨skips', r', st', e, _, h1, h2⟩ := C25_check_function hg h0.run ((kind t).call pre) t
      rw [hs] at e
      cases e
      refine ⟨fun i x hx => ⟨(h1 i x hx).1, (h1 i x hx).2.1⟩, fun n hn hc => ?_⟩
      rcases (h2 n hn).1 with h3 | h3 <;> rw [h3] at hc <;> cases hc
  | release n post good pick h0 hh hp hs ih =>
    rcases List.mem_append.1 hm with hm | hm
    · exact ih hm
    · rw [List.mem_singleton] at hm
      cases hm

/-- C93, first half, partial: if no task is given a tuple of functions, the check before a block is handed out works as
documented.  Missing: tuples, for which it does not (`C93_pre_false`). -/
theorem C93_pre_partial (hg : g.OK) (hk : ∀ t, kind t ≠ .pair) (h : CheckRun g kind log st) :
    ∀ e ∈ log, PreOK kind e := by
  intro e he
  cases e with
  | returned n post good => trivial
  | acquired t pre skips r =>
    obtain ⟨h1, h2⟩ := C93_acquired hg h he
    constructor
    · intro hn
      rw [hn] at h1
      cases skips with
      | nil => rfl
      | cons x xs => exact absurd (h1 0 x rfl).1 (by simp [CheckKind.call])
    · intro hn
      have hf : kind t = .fn := by
        cases hkt : kind t with
        | none => exact absurd hkt hn
        | fn => rfl
        | pair => exact absurd hkt (hk t)
      rw [hf] at h1 h2
      exact ⟨fun i x hx => (h1 i x hx).1, h2⟩

/-- If a task is given a tuple of functions, none of its blocks is ever skipped, whatever the first function says: all
that are completed were processed. -/
theorem C93_pair (hg : g.OK) (h : CheckRun g kind log st) {n : N} (hn : kind (g.task n) = .pair) :
    .skip n ∉ log.flatMap CheckEv.evs ∧
    (Done (log.flatMap CheckEv.evs) n → ∃ post, .returned n post true ∈ log) := by
  have hs : .skip n ∉ log.flatMap CheckEv.evs := by
    intro hm
    obtain ⟨e, he, hm⟩ := List.mem_flatMap.1 hm
    cases e with
    | returned n' post good => cases good <;> simp [CheckEv.evs] at hm
    | acquired t pre skips r =>
      have hx : n ∈ skips := by
        simp only [CheckEv.evs, acquireEvents, List.mem_append, List.mem_map] at hm
        rcases hm with ⟨x, hx, e⟩ | hm
        · cases e; exact hx
        · cases r <;> simp at hm
      obtain ⟨i, hi⟩ := List.getElem?_of_mem hx
      obtain ⟨h1, h2⟩ := (C93_acquired hg h he).1 i n hi
      rw [← h2, hn] at h1
      cases h1
  refine ⟨hs, ?_⟩
  rintro (hd | hd)
  · obtain ⟨e, he, hm⟩ := List.mem_flatMap.1 hd
    cases e with
    | acquired t pre skips r => cases r <;> simp [CheckEv.evs, acquireEvents] at hm
    | returned n' post good =>
      cases good with
      | false => simp [CheckEv.evs] at hm
      | true =>
        simp only [CheckEv.evs, List.mem_singleton] at hm
        cases hm
        exact ⟨post, he⟩
  · exact absurd hd hs

/-- Block `0` of the graph `vee` is handed out and returned, whatever is said about it afterwards. -/
theorem vee_checkRun (k : CheckKind) (pre : Nat → Fin 4 → Check) (hr : (k.call pre = fun _ _ => .raises) ∨
    (k.call pre = fun _ _ => .reject)) (post : Check) :
    ∃ st, CheckRun Ex.vee (fun _ => k) [.acquired 0 pre [] (some 0), .returned 0 post true] st := by
  have h0 : CheckRun Ex.vee (fun _ : Fin 2 => k) [] (Sched.init Ex.vee) := .init
  obtain ⟨⟨skips, r, st⟩, hs⟩ := (C24_never_raises_partial Ex.vee_ok h0.run).1 (k.call pre) 0
  have hd : skips = [] ∧ r = some 0 := by
    have : ((Sched.init Ex.vee).acquireBlock Ex.vee (k.call pre) 0).toOption.map (fun r => (r.1, r.2.1)) =
        some ([], some 0) := by
      rcases hr with hr | hr <;> rw [hr] <;> decide +kernel
    rw [hs] at this
    cases this
    exact ⟨rfl, rfl⟩
  obtain ⟨rfl, rfl⟩ := hd
  have h1 := CheckRun.acquire pre 0 h0 hs
  have hheld : Held (([] ++ [CheckEv.acquired (0 : Fin 2) pre [] (some 0)]).flatMap CheckEv.evs) (0 : Fin 4) := by
    show Held [Ev.hand 0] 0
    decide
  obtain ⟨st', hs'⟩ := ((C24_never_raises_partial Ex.vee_ok h1.run).2 pickMin 0 pickMin_legal hheld).1
  exact ⟨st', CheckRun.release 0 post true pickMin h1 hheld pickMin_legal hs'⟩

/-- The first half of C93 is false: the first function of a tuple accepts a block, and the block is handed out. -/
theorem C93_pre_false : ¬ C93_pre_statement := by
  intro hC
  obtain ⟨st, h⟩ := vee_checkRun .pair (fun _ _ => .accept) (Or.inl rfl) .accept
  have := hC _ _ _ _ _ _ _ Ex.vee_ok h _ List.mem_cons_self
  exact (this.2 (by decide)).2 0 rfl rfl

/-- The second half of C93 is false, also if one function is given: a block that it does not accept after it was
processed is completed.  The check function is not called again. -/
theorem C93_post_false : ¬ C93_post_statement := by
  intro hC
  obtain ⟨st, h⟩ := vee_checkRun .fn (fun _ _ => .reject) (Or.inr rfl) .reject
  rcases hC _ _ _ _ _ _ _ Ex.vee_ok h 0 (by decide) (by decide) (by left; simp [CheckEv.evs]) with h | h
  · simp [CheckEv.evs, acquireEvents] at h
  · simp [PostAccepted] at h

/-- The hypotheses of `C93_pre_partial` and of `C93_pair`, with a block that is handed out. -/
example : (∃ st, CheckRun Ex.vee (fun _ => .fn) [.acquired 0 (fun _ _ => .reject) [] (some 0), .returned 0 .accept true] st) ∧
    (∀ t : Fin 2, (fun _ : Fin 2 => CheckKind.fn) t ≠ .pair) ∧
    ∃ st, CheckRun Ex.vee (fun _ => .pair) [.acquired 0 (fun _ _ => .accept) [] (some 0), .returned 0 .reject true] st :=
  ⟨vee_checkRun .fn _ (Or.inr rfl) _, fun _ => CheckKind.noConfusion, vee_checkRun .pair _ (Or.inl rfl) _⟩

/-! ### C94 -/

/-- The claim: a process function is accepted exactly if it can be called without arguments or with a block, and then it
will be called like this. -/
def C94_statement : Prop :=
  ∀ f : Fn, (f.classify = .ok .spawn → Fn.Accepts f 0) ∧ (f.classify = .ok .block → Fn.Accepts f 1) ∧
    (f.classify = .error .valueError → ¬ Fn.Accepts f 0 ∧ ¬ Fn.Accepts f 1)

/-- C94, partial: for functions and methods written in the usual way, without default values and the like.  It is
classified as a function that spawns a worker iff it can be called without arguments; as one that processes a
block iff it can be called with one argument; and `Task` raises `ValueError`, and nothing else, iff neither is possible.
Missing: other signatures, for which it is false (`C94_default_false`, `C94_wrapped_false`, `C94_class_false`,
`C94_kwonly_false`). -/
theorem C94_usual_partial {f : Fn} (h : Fn.Usual f) :
    (f.classify = .ok .spawn ↔ Fn.Accepts f 0) ∧ (f.classify = .ok .block ↔ Fn.Accepts f 1) ∧
    (f.classify = .error .valueError ↔ ¬ Fn.Accepts f 0 ∧ ¬ Fn.Accepts f 1) ∧
    ∀ e, f.classify = .error e → e = .valueError := by
  cases f with
  | wrapped f => cases h
  | plain s =>
    obtain ⟨b, ps, va, kw⟩ := s
    obtain ⟨hb, rfl, rfl, hp⟩ := h
    have hself : "self" ∉ ps.map (·.name) := by
      intro hm
      obtain ⟨p, h1, h2⟩ := List.mem_map.1 hm
      exact (hp p h1).2 h2
    have hlen : (if "self" ∈ (Fn.plain ⟨b, ps, false, []⟩).args then
        (Fn.plain ⟨b, ps, false, []⟩).args.erase "self" else (Fn.plain ⟨b, ps, false, []⟩).args).length = ps.length := by
      rcases hb with rfl | rfl <;> simp only [Fn.args, Option.toList_none, Option.toList_some, List.nil_append]
      · simp [hself]
      · simp
    unfold Fn.classify
    simp only [hlen, Fn.Accepts, Sig.Accepts]
    match ps, hp with
    | [], _ => simp
    | [p], hp =>
      have := (hp p (by simp)).1
      simp [this]
    | p :: q :: ps, hp =>
      have h1 := (hp p (by simp)).1
      have h2 := (hp q (by simp)).1
      simp [h1, h2]

/-- The usual forms: a function of a block, a method of a block, a spawn method, a function of two arguments. -/
example : Fn.Usual (.plain ⟨none, [⟨"block", false⟩], false, []⟩) ∧
    Fn.Usual (.plain ⟨some "self", [⟨"block", false⟩], false, []⟩) ∧ Fn.Usual (.plain ⟨some "self", [], false, []⟩) ∧
    Fn.Usual (.plain ⟨none, [⟨"block", false⟩, ⟨"n", false⟩], false, []⟩) := by
  refine ⟨?_, ?_, ?_, ?_⟩ <;> simp [Fn.Usual]

/-- C94 is false: a function of a block with a further parameter that has a default value is refused. -/
theorem C94_default_false : ∃ f : Fn, f.classify = .error .valueError ∧ Fn.Accepts f 1 :=
  ⟨.plain ⟨none, [⟨"block", false⟩, ⟨"verbose", true⟩], false, []⟩, by decide, by simp [Fn.Accepts, Sig.Accepts]⟩

/-- C94 is false: whatever a decorator with `*args` is applied to is taken for a function that spawns a worker, and will
be called without arguments; also if it needs a block. -/
theorem C94_wrapped_false : (∀ f : Fn, (Fn.wrapped f).classify = .ok .spawn) ∧
    ∃ f : Fn, f.classify = .ok .spawn ∧ Fn.Accepts f 1 ∧ ¬ Fn.Accepts f 0 :=
  ⟨fun _ => rfl, .wrapped (.plain ⟨none, [⟨"block", false⟩], false, []⟩), rfl, by simp [Fn.Accepts, Sig.Accepts],
    by simp [Fn.Accepts, Sig.Accepts]⟩

/-- C94 is false: a class method without further parameters is taken for a function of a block, and one of a
block is refused. -/
theorem C94_class_false : (∃ f : Fn, f.classify = .ok .block ∧ Fn.Accepts f 0 ∧ ¬ Fn.Accepts f 1) ∧
    ∃ f : Fn, f.classify = .error .valueError ∧ Fn.Accepts f 1 :=
  ⟨⟨.plain ⟨some "cls", [], false, []⟩, by decide, by simp [Fn.Accepts, Sig.Accepts], by simp [Fn.Accepts, Sig.Accepts]⟩,
    .plain ⟨some "cls", [⟨"block", false⟩], false, []⟩, by decide, by simp [Fn.Accepts, Sig.Accepts]⟩

/-- C94 is false: a function that needs a keyword argument is accepted. -/
theorem C94_kwonly_false : ∃ f : Fn, f.classify = .ok .block ∧ ¬ Fn.Accepts f 1 ∧ ¬ Fn.Accepts f 0 :=
  ⟨.plain ⟨none, [⟨"block", false⟩], false, [⟨"scale", false⟩]⟩, by decide, by simp [Fn.Accepts, Sig.Accepts],
    by simp [Fn.Accepts, Sig.Accepts]⟩

theorem C94_false : ¬ C94_statement := by
  intro hC
  obtain ⟨f, h1, _, h2⟩ := C94_wrapped_false.2
  exact h2 ((hC f).1 h1)

end Verif
