import Verif.Proofs.Processes

/-! # No worker process outlives a run: C97 -/

namespace Verif

open PWorld

variable {T : Type} [DecidableEq T] {fail : StartFails} {num : T → Nat}

/-- C97: whatever the event loop does, whether it ends with an exception or without, and whether processes can be started
or not: when `run_blockwise` is left, the process of no worker runs. -/
def C97_statement : Prop :=
  ∀ (T : Type) [DecidableEq T] (fail : StartFails) (num : T → Nat) (served ready : List T) (es : List (PEv T))
    (raised : Option PyErr) (i : Nat), (runBlockwise fail num served ready es raised).val.os i ≠ some none

/-- What can be lost in a run that ended in `r`: something was started before the last start, which failed and raised. -/
def Lost (fail : StartFails) (r : PRes (PWorld T)) (i : Nat) : Prop :=
  ∃ e, r.err = some e ∧ Failed fail r.val.next e ∧ i + 1 < r.val.next

omit [DecidableEq T] in
/-- Weaken what is lost. -/
theorem PWorld.Fits.mono {lost lost' : Nat → Prop} {w : PWorld T} (h : Fits lost w) (hl : ∀ i, lost i → lost' i) :
    Fits lost' w := ⟨h.lt, h.fresh, h.idle, fun i hi => (h.alive i hi).imp id (hl i)⟩

theorem step_fits {w : PWorld T} (h : Fits (fun _ => False) w) (e : PEv T) :
    Fits (Lost fail (w.step fail num e)) (w.step fail num e).val := by
  have key : ∀ (f : T → One → PRes One), (∀ t x, Fit1 x → Step1 fail x (f t x)) →
      Fits (Lost fail (each f w.pools w.next w.os)) (each f w.pools w.next w.os).val := by
    intro f hf
    have := (each_spec hf w.pools [] w.next w.os (fun _ => False) h).2
    exact this.mono fun i hi => hi.elim False.elim id
  cases e with
  | recruit ready =>
    refine key _ fun t x hx => ?_
    split_ifs
    · exact setNum_step hx _
    · exact same_step hx
  | health reported => exact key _ fun t x hx => healthOne_step hx _
  | restart t id =>
    refine key _ fun t' x hx => ?_
    split_ifs
    · exact restart_step hx _
    · exact same_step hx
  | exit id code =>
    have hex : ∀ i, (w.exit id code).os i = some none → w.os i = some none := by
      intro i hi
      unfold PWorld.exit at hi
      split_ifs at hi with h1
      · simp only [setOs] at hi
        split_ifs at hi
        · cases hi
        · exact hi
      · exact hi
    have hp : (w.exit id code).pools = w.pools ∧ (w.exit id code).next = w.next := by
      unfold PWorld.exit
      split_ifs <;> exact ⟨rfl, rfl⟩
    show Fits _ (w.exit id code)
    refine ⟨?_, ?_, ?_, ?_⟩
    · rw [hp.1, hp.2]; exact h.lt
    · rw [hp.2]
      intro i hi
      have h0 := h.fresh i hi
      unfold PWorld.exit
      split_ifs with h1
      · simp only [setOs]
        split_ifs with h2
        · rw [← h2, h0] at h1; cases h1
        · exact h0
      · exact h0
    · rw [hp.1]
      intro e he v hv hpr hc
      exact h.idle e he v hv hpr (hex _ hc)
    · intro i hi
      rw [hp.1]
      rcases h.alive i (hex i hi) with a | a
      · exact Or.inl a
      · exact a.elim

theorem loop_lost (raised : Option PyErr) (i : Nat) : ∀ (es : List (PEv T)) {w : PWorld T}, Fits (fun _ => False) w →
    (loop fail num es raised w).val.os i = some none → Lost fail (loop fail num es raised w) i
  | [], w, h, hi => by
    obtain ⟨a1, a2, a3, a4⟩ := stopAll_spec (fail := fail) w.pools [] w.next w.os _ h (by simp)
    unfold loop PWorld.stopAll at hi
    rcases hr : each (fun (_ : T) x => setNum fail x 0) w.pools w.next w.os with ⟨err, w'⟩
    rw [hr] at a1 a2 a3 a4 hi
    simp only at a1
    subst a1
    exact (a4 i hi).elim
  | e :: es, w, h, hi => by
    have hs := step_fits (fail := fail) (num := num) h e
    unfold loop at hi ⊢
    rcases hr : w.step fail num e with ⟨err, w'⟩
    rw [hr] at hs hi
    cases err with
    | none =>
      simp only at hi ⊢
      exact loop_lost raised i es (hs.mono fun j ⟨e', he, _⟩ => by cases he) hi
    | some e' =>
      simp only at hi ⊢
      obtain ⟨a1, a2, a3, a4⟩ := stopAll_spec (fail := fail) w'.pools [] w'.next w'.os _ hs (by simp)
      unfold PWorld.stopAll at hi ⊢
      rcases hr' : each (fun (_ : T) x => setNum fail x 0) w'.pools w'.next w'.os with ⟨err, w''⟩
      rw [hr'] at a1 a2 a3 a4 hi
      simp only at a1 a3
      subst a1
      simp only at hi ⊢
      obtain ⟨e'', he, hf, hlt⟩ := a4 i hi
      cases he
      refine ⟨_, rfl, ?_, ?_⟩
      · show Failed fail w''.next _
        rw [a3]; exact hf
      · show i + 1 < w''.next
        rw [a3]; exact hlt

omit [DecidableEq T] in
theorem init_fits (served : List T) : Fits (fun _ => False) (PWorld.init served) := by
  refine ⟨?_, fun _ _ => rfl, ?_, fun i hi => by cases hi⟩
  · intro e he v hv
    obtain ⟨t, _, rfl⟩ := List.mem_map.1 he
    cases hv
  · intro e he v hv
    obtain ⟨t, _, rfl⟩ := List.mem_map.1 he
    cases hv

/-- A process that runs when `run_blockwise` is left was started before another one that could not be started; that was
the last one to be started at all, and `run_blockwise` ends with this exception. -/
theorem C97_lost (served ready : List T) (es : List (PEv T)) (raised : Option PyErr) (i : Nat)
    (h : (runBlockwise fail num served ready es raised).val.os i = some none) :
    ∃ j e, i < j ∧ fail j = some e ∧ (runBlockwise fail num served ready es raised).err = some e ∧
      (runBlockwise fail num served ready es raised).val.next = j + 1 := by
  unfold runBlockwise at h ⊢
  have hs := step_fits (fail := fail) (num := num) (init_fits served) (.recruit ready)
  have he := each_err (fail := fail) (f := fun t x => if t ∈ ready then setNum fail x (num t) else ⟨none, x⟩)
    (P := fun e next os => Failed fail next e ∧ os (next - 1) = none)
    (fun t x hx => by
      split_ifs
      · exact setNum_step hx _
      · exact same_step hx)
    (fun t x e hx he => by
      split_ifs at he ⊢
      exact setNum_err hx he) (PWorld.init served).pools [] (PWorld.init served).next (PWorld.init served).os _ (init_fits served)
  change ∀ e, ((PWorld.init served).recruit fail num ready).err = some e →
    Failed fail ((PWorld.init served).recruit fail num ready).val.next e ∧
    ((PWorld.init served).recruit fail num ready).val.os (((PWorld.init served).recruit fail num ready).val.next - 1) = none at he
  change Fits (Lost fail ((PWorld.init served).recruit fail num ready)) ((PWorld.init served).recruit fail num ready).val at hs
  rcases hr : (PWorld.init served).recruit fail num ready with ⟨err, w⟩
  rw [hr] at h he hs
  cases err with
  | none =>
    obtain ⟨e, h1, ⟨j, h2, h3⟩, h4⟩ := loop_lost raised i es (hs.mono fun j ⟨e', he, _⟩ => by cases he) h
    exact ⟨j, e, by omega, h3, h1, h2⟩
  | some e =>
    obtain ⟨⟨j, h2, h3⟩, h4⟩ := he e rfl
    simp only at h h2 h4 ⊢
    refine ⟨j, e, ?_, h3, rfl, h2⟩
    by_contra hc
    by_cases hij : i = j
    · rw [h2, Nat.add_sub_cancel, ← hij, h] at h4
      cases h4
    · rw [hs.fresh i (by simp only; omega)] at h
      cases h

/-- C97, partial: if every process can be started, no process runs when `run_blockwise` is left.  Missing: failing
starts, for which it is false (`C97_recruit_false`, `C97_health_false`). -/
theorem C97_partial (hf : ∀ i, fail i = none) (served ready : List T) (es : List (PEv T)) (raised : Option PyErr)
    (i : Nat) : (runBlockwise fail num served ready es raised).val.os i ≠ some none := by
  intro h
  obtain ⟨j, e, _, h1, _⟩ := C97_lost served ready es raised i h
  rw [hf] at h1
  cases h1

/-- A run with two tasks; workers 0 and 1 were started for the first, worker 2 for the second.  Worker 0 ends by itself
and is replaced by worker 3.  In the end nothing runs. -/
example :
    let es : List (PEv (Fin 2)) := [.recruit [0, 1], .exit 0 1, .health (fun _ => none), .restart 1 2]
    let r := runBlockwise (fun _ => none) (fun t => if t = 0 then 2 else 1) [0, 1] [0] es (some .userException)
    r.err = some .userException ∧ r.val.next = 5 ∧ (List.range 6).map r.val.os =
      [some (some 1), some (some (-15)), some (some (-15)), some (some (-15)), some (some (-15)), none] := by decide

/-- C97 is false: the second process of the second task cannot be started.  `_recruit_workers` is called before the `try`
statement: the workers of the first task, which are in their pool, and the one of the second, which is not, run on. -/
theorem C97_recruit_false : ∃ (fail : StartFails) (num : Fin 2 → Nat) (served ready : List (Fin 2)),
    let r := runBlockwise fail num served ready [] none
    r.err = some .osError ∧ (List.range 4).map r.val.os = [some none, some none, some none, none] ∧
    r.val.pools = [(0, [⟨0, true⟩, ⟨1, true⟩]), (1, [])] :=
  ⟨fun i => if i = 3 then some .osError else none, fun _ => 2, [0, 1], [0, 1], by decide⟩

/-- C97 is false also after the event loop was entered: two workers have failed and are replaced; the process of the first
new worker is started, that of the second is not.  `_start_workers` has not stored the first one yet, so that nobody stops
it; all others are stopped. -/
theorem C97_health_false : ∃ (fail : StartFails) (num : Fin 2 → Nat) (served ready : List (Fin 2)) (es : List (PEv (Fin 2))),
    let r := runBlockwise fail num served ready es none
    r.err = some .osError ∧ (∀ e ∈ r.val.pools, e.2 = []) ∧
    (List.range 5).map r.val.os = [some (some 1), some (some 1), some (some (-15)), some none, none] :=
  ⟨fun i => if i = 4 then some .osError else none, fun _ => 3, [0], [0],
    [.exit 0 1, .exit 1 1, .health (fun _ => none)], by decide⟩

theorem C97_false : ¬ C97_statement := by
  intro hC
  have h := hC (Fin 2) (fun i => if i = 3 then some .osError else none) (fun _ => 2) [0, 1] [0, 1] [] none 0
  exact h (by decide)

end Verif
