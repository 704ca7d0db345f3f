import Verif.Model.Monitor

/-! # C52: the progress display -/

namespace Verif

open Monitor

variable {B : Type}

/-- The states of task `t` that the bar is told about. -/
def Spec.updates (t : String) (es : List (MonEv B)) : List TState :=
  es.filterMap (fun e => match e with
    | .acquire t' s => if t' = t then some s else none
    | .release t' s => if t' = t then some s else none
    | _ => none)

/-- Task `t` was announced done. -/
def Spec.doneStates (t : String) (es : List (MonEv B)) : List TState :=
  es.filterMap (fun e => match e with
    | .done t' s => if t' = t then some s else none
    | _ => none)

/-- All states of task `t` that were notified, in order. -/
def Spec.notified (t : String) (es : List (MonEv B)) : List TState :=
  es.filterMap (fun e => match e with
    | .acquire t' s => if t' = t then some s else none
    | .release t' s => if t' = t then some s else none
    | .start t' s => if t' = t then some s else none
    | .done t' s => if t' = t then some s else none
    | .failure _ _ _ => none)

/-- The mark of the final state of a task. -/
def Spec.mark (s : TState) : String :=
  if 0 < s.failed then " ✗" else if s.failed ≤ 0 ∧ 0 < s.orphaned then " ∅" else " ✔"

private theorem run_append (m : Monitor B) (es es' : List (MonEv B)) :
    m.run (es ++ es') = match m.run es with
      | .error x => .error x
      | .ok m' => m'.run es' := by
  induction es generalizing m with
  | nil => rfl
  | cons e es ih =>
    rw [List.cons_append]
    have hc : ∀ l, m.run (e :: l) = match m.step e with
      | .error x => .error x
      | .ok m' => m'.run l := fun _ => rfl
    rw [hc, hc]
    cases m.step e with
    | error x => rfl
    | ok m' => exact ih m'

private theorem run_snoc {m m' : Monitor B} {es : List (MonEv B)} {e : MonEv B} (h : m.run (es ++ [e]) = .ok m') :
    ∃ m1, m.run es = .ok m1 ∧ m1.step e = .ok m' := by
  rw [run_append] at h
  cases hr : m.run es with
  | error x => rw [hr] at h; cases h
  | ok m1 =>
    rw [hr] at h
    refine ⟨m1, rfl, ?_⟩
    dsimp only at h
    unfold run at h
    cases hs : m1.step e with
    | error x => rw [hs] at h; cases h
    | ok m2 => rw [hs] at h; exact h

/-- What is known about the bar of a task before it is announced done. -/
private def BarOK (t : String) (ups : List TState) (b : Option Bar) : Prop :=
  match ups.getLast? with
  | none => b = none
  | some s => ∃ s0, ups.head? = some s0 ∧ b = some ⟨s0.total, s.completed, t ++ " ▶",
      [s.pending, s.processing, s.completed, s.failed, s.orphaned], false⟩

private theorem updates_append (t : String) (es es' : List (MonEv B)) :
    Spec.updates t (es ++ es') = Spec.updates t es ++ Spec.updates t es' := List.filterMap_append

private theorem doneStates_append (t : String) (es es' : List (MonEv B)) :
    Spec.doneStates t (es ++ es') = Spec.doneStates t es ++ Spec.doneStates t es' := List.filterMap_append

private theorem bar_running (t : String) (es : List (MonEv B)) {m : Monitor B}
    (h : (init : Monitor B).run es = .ok m) (hd : Spec.doneStates t es = []) : BarOK t (Spec.updates t es) (m.bars t) := by
  induction es using List.reverseRecOn generalizing m with
  | nil => cases h; rfl
  | append_singleton es e ih =>
    obtain ⟨m1, h1, h2⟩ := run_snoc h
    rw [doneStates_append, List.append_eq_nil_iff] at hd
    have ih := ih h1 hd.1
    rw [updates_append]
    have hup : ∀ s t', m1.updateState t' s = m → Spec.updates t [e] = (if t' = t then [s] else []) →
        BarOK t (Spec.updates t es ++ Spec.updates t [e]) (m.bars t) := by
      intro s t' hm hu
      subst hm
      rw [hu]
      by_cases ht : t' = t
      · subst ht
        rw [if_pos rfl]
        unfold BarOK at ih ⊢
        rw [List.getLast?_append]
        simp only [List.getLast?_singleton, Option.some_or]
        unfold updateState
        simp only [upd, if_true]
        cases hl : (Spec.updates t' es).getLast? with
        | none =>
          rw [hl] at ih
          have hnil := List.getLast?_eq_none_iff.1 hl
          rw [hnil]
          refine ⟨s, rfl, ?_⟩
          rw [ih]
          simp [Bar.update]
        | some s1 =>
          rw [hl] at ih
          obtain ⟨s0, h0, hb⟩ := ih
          refine ⟨s0, by rw [List.head?_append, h0]; rfl, ?_⟩
          rw [hb]
          simp [Bar.update]
      · rw [if_neg ht, List.append_nil]
        unfold updateState
        simp only [upd]
        rw [if_neg (fun hc => ht hc.symm)]
        exact ih
    cases e with
    | acquire t' s =>
      refine hup s t' (by cases h2; rfl) ?_
      unfold Spec.updates
      by_cases ht : t' = t <;> simp [ht]
    | release t' s =>
      refine hup s t' (by cases h2; rfl) ?_
      unfold Spec.updates
      by_cases ht : t' = t <;> simp [ht]
    | failure t' b w =>
      have : m.bars = m1.bars := by
        unfold step onBlockFailure at h2
        dsimp only at h2
        split at h2
        · cases h2
        · cases h2; rfl
      rw [this]
      simpa [Spec.updates] using ih
    | start t' s =>
      cases h2
      simpa [Spec.updates] using ih
    | done t' s =>
      have ht : t' ≠ t := by
        intro hc
        have := hd.2
        simp [Spec.doneStates, hc] at this
      have hb : m.bars t = m1.bars t := by
        simp only [step, onTaskDone] at h2
        cases h2
        cases m1.bars t' with
        | none => rfl
        | some b => simp [upd, Ne.symm ht]
      rw [hb]
      simpa [Spec.updates] using ih

/-- As long as a task is not announced done: it has a bar iff a block was acquired or released, and the bar shows
the number of completed blocks (and the other counts) of the last state it was told about, out of the total. -/
theorem C52_bar (t : String) (es : List (MonEv B)) {m : Monitor B} (h : (init : Monitor B).run es = .ok m)
    (hd : Spec.doneStates t es = []) :
    (Spec.updates t es = [] → m.bars t = none) ∧
    ∀ s, (Spec.updates t es).getLast? = some s → ∃ b, m.bars t = some b ∧ b.n = s.completed ∧ b.closed = false ∧
      b.desc = t ++ " ▶" ∧ b.info = [s.pending, s.processing, s.completed, s.failed, s.orphaned] ∧
      ∃ s0, (Spec.updates t es).head? = some s0 ∧ b.total = s0.total := by
  have := bar_running t es h hd
  unfold BarOK at this
  constructor
  · intro hn
    rw [hn] at this
    exact this
  · intro s hs
    rw [hs] at this
    obtain ⟨s0, h0, hb⟩ := this
    exact ⟨_, hb, rfl, rfl, rfl, rfl, s0, h0, rfl⟩

/-- When a task is announced done: if it has a bar, it gets the right mark, is closed, and keeps the count it had. -/
theorem C52_done (t : String) (es : List (MonEv B)) {m m' : Monitor B} (h : (init : Monitor B).run es = .ok m)
    (hd : Spec.doneStates t es = []) (s : TState) (h' : m.step (.done t s) = .ok m') :
    (Spec.updates t es = [] → m'.bars t = none) ∧
    ∀ s1, (Spec.updates t es).getLast? = some s1 → ∃ b, m'.bars t = some b ∧ b.n = s1.completed ∧
      b.closed = true ∧ b.desc = t ++ Spec.mark s := by
  have h1 := C52_bar t es h hd
  simp only [step, onTaskDone] at h'
  cases h'
  constructor
  · intro hn
    rw [h1.1 hn]
    exact h1.1 hn
  · intro s1 hs1
    obtain ⟨b, hb, hn, _⟩ := h1.2 s1 hs1
    rw [hb]
    refine ⟨{ b with desc := t ++ symbol s, closed := true }, by simp [upd], hn, rfl, ?_⟩
    dsimp only
    unfold symbol Spec.mark
    by_cases hf : s.failed > 0
    · simp [hf]
    · have : s.failed ≤ 0 := by omega
      simp [this]

private theorem run_cons {m m' : Monitor B} {e : MonEv B} {es : List (MonEv B)} (h : m.run (e :: es) = .ok m') :
    ∃ m1, m.step e = .ok m1 ∧ m1.run es = .ok m' := by
  unfold run at h
  cases hs : m.step e with
  | error x => rw [hs] at h; cases h
  | ok m1 => rw [hs] at h; exact ⟨m1, rfl, h⟩

/-- A closed bar keeps its count and, if the task is not announced again, its mark, whatever comes. -/
theorem C52_closed (t : String) (es : List (MonEv B)) {m m' : Monitor B} (h : m.run es = .ok m') {b : Bar}
    (hb : m.bars t = some b) (hc : b.closed = true) (hd : Spec.doneStates t es = []) :
    ∃ b', m'.bars t = some b' ∧ b'.n = b.n ∧ b'.desc = b.desc ∧ b'.closed = true := by
  induction es generalizing m b with
  | nil => cases h; exact ⟨b, hb, rfl, rfl, hc⟩
  | cons e es ih =>
    obtain ⟨m1, h1, h2⟩ := run_cons h
    have hsplit : e :: es = [e] ++ es := rfl
    rw [hsplit, doneStates_append, List.append_eq_nil_iff] at hd
    have hup : ∀ t' s, m1 = m.updateState t' s → ∃ b1, m1.bars t = some b1 ∧ b1.n = b.n ∧ b1.desc = b.desc ∧
        b1.closed = true := by
      intro t' s hm
      subst hm
      unfold updateState
      by_cases ht : t' = t
      · subst ht
        rw [hb]
        simp [upd, Bar.update, hc]
      · refine ⟨b, ?_, rfl, rfl, hc⟩
        simp only [upd]
        rw [if_neg (fun hc => ht hc.symm)]
        exact hb
    have hone : ∃ b1, m1.bars t = some b1 ∧ b1.n = b.n ∧ b1.desc = b.desc ∧ b1.closed = true := by
      cases e with
      | acquire t' s => cases h1; exact hup t' s rfl
      | release t' s => cases h1; exact hup t' s rfl
      | failure t' x w =>
        unfold step onBlockFailure at h1
        dsimp only at h1
        split at h1
        · cases h1
        · cases h1; exact ⟨b, hb, rfl, rfl, hc⟩
      | start t' s => cases h1; exact ⟨b, hb, rfl, rfl, hc⟩
      | done t' s =>
        have ht : t' ≠ t := by
          intro hcc
          have := hd.1
          simp [Spec.doneStates, hcc] at this
        simp only [step, onTaskDone] at h1
        cases h1
        refine ⟨b, ?_, rfl, rfl, hc⟩
        cases m.bars t' with
        | none => exact hb
        | some b' => simp only [upd]; rw [if_neg (Ne.symm ht)]; exact hb
    obtain ⟨b1, g1, g2, g3, g4⟩ := hone
    obtain ⟨b2, i1, i2, i3, i4⟩ := ih h2 g1 g4 hd.2
    exact ⟨b2, i1, by rw [i2, g2], by rw [i3, g3], i4⟩

/-- The claim: after every sequence of notifications the bar of a task shows the completed blocks of the last
state that was notified, and, once the task is done, the mark of that state. -/
def C52_statement : Prop :=
  ∀ (es : List (MonEv Nat)) (m : Monitor Nat) (t : String) (s : TState), (init : Monitor Nat).run es = .ok m →
    (Spec.notified t es).getLast? = some s → ∃ b, m.bars t = some b ∧ b.n = s.completed ∧
      ((Spec.doneStates t es).getLast? = some s → b.desc = t ++ Spec.mark s)

/-- False: a task all of whose blocks were skipped has no bar when it is done. -/
theorem C52_false : ¬C52_statement := by
  intro hC
  let s : TState := ⟨true, 2, 0, 0, 2, 2, 0, 0⟩
  obtain ⟨b, hb, _⟩ := hC [.start "t" s, .done "t" s] _ "t" s rfl rfl
  cases hb

/-- False also if there is a bar: blocks that are skipped after the last block was handed out are counted, but the
bar is not told; it is closed with the mark of success and one of two blocks. -/
theorem C52_false_skipped : ∃ (es : List (MonEv Nat)) (m : Monitor Nat) (s : TState) (b : Bar),
    (init : Monitor Nat).run es = .ok m ∧ (Spec.notified "t" es).getLast? = some s ∧ s.completed = 2 ∧
    m.bars "t" = some b ∧ b.n = 1 ∧ b.total = 2 ∧ b.desc = "t ✔" :=
  ⟨[.start "t" ⟨true, 2, 2, 0, 0, 0, 0, 0⟩, .acquire "t" ⟨true, 2, 1, 1, 0, 0, 0, 0⟩,
    .release "t" ⟨true, 2, 1, 0, 1, 0, 0, 0⟩, .done "t" ⟨true, 2, 0, 0, 2, 1, 0, 0⟩], _, ⟨true, 2, 0, 0, 2, 1, 0, 0⟩, _,
    rfl, rfl, rfl, rfl, rfl, rfl, by decide⟩

/-- The claim holds if the state in which the task is announced done was the state of the last acquired or
released block, and nothing is notified afterwards. -/
theorem C52_final_partial (t : String) (es : List (MonEv B)) (s : TState) {m : Monitor B}
    (h : (init : Monitor B).run (es ++ [.done t s]) = .ok m) (hd : Spec.doneStates t es = [])
    (hs : (Spec.updates t es).getLast? = some s) :
    ∃ b, m.bars t = some b ∧ b.n = s.completed ∧ b.desc = t ++ Spec.mark s := by
  obtain ⟨m1, h1, h2⟩ := run_snoc h
  obtain ⟨b, h3, h4, _, h5⟩ := (C52_done t es h1 hd s h2).2 s hs
  exact ⟨b, h3, h4, h5⟩

/-- Failures are recorded: the monitor raises `KeyError` iff a failure is notified for a task that was neither
started nor done. -/
theorem C52_raises (t : String) (b : B) (w : Nat) (es : List (MonEv B)) {m : Monitor B}
    (h : (init : Monitor B).run es = .ok m) :
    (m.step (.failure t b w) = .error .keyError) ↔
      ∀ e ∈ es, ∀ s, e ≠ .start t s ∧ e ≠ .done t s := by
  have key : (m.sums t = none) ↔ ∀ e ∈ es, ∀ s, e ≠ .start t s ∧ e ≠ .done t s := by
    induction es using List.reverseRecOn generalizing m with
    | nil => cases h; simp [init]
    | append_singleton es e ih =>
      obtain ⟨m1, h1, h2⟩ := run_snoc h
      have ih := ih h1
      simp only [List.mem_append, List.mem_singleton, or_imp, forall_and, forall_eq]
      simp only [forall_and] at ih
      cases e with
      | acquire t' s => cases h2; simpa [updateState] using ih
      | release t' s => cases h2; simpa [updateState] using ih
      | failure t' x w' =>
        unfold step onBlockFailure at h2
        dsimp only at h2
        split at h2
        · cases h2
        · rename_i y hy
          cases h2
          by_cases ht : t' = t
          · subst ht
            simp only [hy, reduceCtorEq, false_iff] at ih
            simp only [upd, if_true, reduceCtorEq, false_iff]
            rintro ⟨⟨h5, -⟩, ⟨h6, -⟩⟩
            exact ih ⟨h5, h6⟩
          · simp only [upd]
            rw [if_neg (fun hc => ht hc.symm)]
            simpa using ih
      | start t' s =>
        cases h2
        by_cases ht : t' = t
        · subst ht; simp [upd]
        · simp only [upd]
          rw [if_neg (fun hc => ht hc.symm)]
          simpa [ht] using ih
      | done t' s =>
        simp only [step, onTaskDone] at h2
        cases h2
        by_cases ht : t' = t
        · subst ht
          cases m1.bars t' <;> cases m1.sums t' <;> simp [upd]
        · have : ∀ x, upd m1.sums t' x t = m1.sums t := fun x => by
            simp only [upd]; rw [if_neg (fun hc => ht hc.symm)]
          cases m1.bars t' <;> cases m1.sums t' <;> simpa [this, ht] using ih
  rw [← key]
  unfold step onBlockFailure
  dsimp only
  cases m.sums t <;> simp

/-- Every failure is listed or counted in the summary, at most a hundred are listed. -/
theorem C52_listed (x : Summary B) :
    (listed x).1.length + (listed x).2 = x.failures.length ∧ (listed x).1.length ≤ 100 := by
  unfold listed
  dsimp only
  rw [List.length_take]
  split <;> omega

/-- A bar after three notifications. -/
example : ((init : Monitor Nat).run [.start "t" ⟨true, 3, 3, 0, 0, 0, 0, 0⟩, .acquire "t" ⟨true, 3, 2, 1, 0, 0, 0, 0⟩,
    .release "t" ⟨true, 3, 2, 0, 1, 0, 0, 0⟩]).toOption.bind (fun m => m.bars "t") =
    some ⟨3, 1, "t ▶", [0, 0, 1, 0, 0], false⟩ := by decide

end Verif
