import Verif.Model.Shutdown
import Verif.Props.Processes
import Verif.Props.Observer
import Verif.Proofs.Serial
import Verif.Spec.SerialExec
import Verif.Props.SystemWork

/-! # C104: the end of a run is announced -/

namespace Verif

open PWorld Spec

variable {T O : Type} [DecidableEq T] [DecidableEq O] {num : T → Nat}

/-- C104: however `run_blockwise` is left, every observer has been told once, in the order of registration, that the
server exits, and the streams of all clients are closed; provided that the observers just listen. -/
def C104_statement : Prop :=
  ∀ (T O : Type) [DecidableEq T] [DecidableEq O] (a : Around O) (num : T → Nat) (served ready : List T)
    (es : List (PEv T)) (raised : Option PyErr) (fuel : Nat) (L : Left T O), (∀ o ∈ a.observers, QuietObs a.cb o) →
    a.observers.length < fuel → runServer a fuel num served ready es raised = some L →
    (∃ r, L.exit = some r ∧ r.called = a.observers) ∧ ∀ s ∈ L.streams, s.closed = true

/-- What the `finally` clause makes of the exception `e` and the workers `w` that the loop leaves behind. -/
private def after (a : Around O) (fuel : Nat) (e : Option PyErr) (w : PWorld T) : Option (Left T O) :=
  match Observee.notify a.cb fuel a.observers 0 [] with
  | none => none
  | some r => some ⟨if r.error.isSome then r.error else e, w, a.streams.map CStream.close, some r⟩

omit [DecidableEq T] in
private theorem stopAll_none {fail : StartFails} {lost : Nat → Prop} {w : PWorld T} (h : Fits lost w) :
    (w.stopAll fail).err = none :=
  (stopAll_spec (fail := fail) w.pools [] w.next w.os _ h (by simp)).1

private theorem tryLoop_eq (a : Around O) (fuel : Nat) (raised : Option PyErr) : ∀ (es : List (PEv T)) {w : PWorld T},
    Fits (fun _ => False) w → tryLoop a fuel num es raised w =
      after a fuel (loop a.fail num es raised w).err (loop a.fail num es raised w).val
  | [], w, h => by
    have h1 := stopAll_none (fail := a.fail) h
    unfold tryLoop loop shutdown
    rcases hr : w.stopAll a.fail with ⟨err, w'⟩
    rw [hr] at h1
    simp only at h1
    subst h1
    rfl
  | e :: es, w, h => by
    have hs := step_fits (fail := a.fail) (num := num) h e
    unfold tryLoop loop
    rcases hr : w.step a.fail num e with ⟨err, w'⟩
    rw [hr] at hs
    cases err with
    | none => exact tryLoop_eq a fuel raised es (hs.mono fun j ⟨e', he, _⟩ => by cases he)
    | some e' =>
      have h1 := stopAll_none (fail := a.fail) hs
      simp only [shutdown] at h1 ⊢
      rcases hr' : w'.stopAll a.fail with ⟨err, w''⟩
      rw [hr'] at h1
      simp only at h1
      subst h1
      rfl

/-- Whether the workers for the tasks that are ready at the beginning can be started. -/
def Recruits (fail : StartFails) (num : T → Nat) (served ready : List T) : Prop :=
  ((PWorld.init served).recruit fail num ready).err = none

private theorem runServer_eq (a : Around O) (fuel : Nat) (raised : Option PyErr) (served ready : List T)
    (es : List (PEv T)) (hr : Recruits a.fail num served ready) : runServer a fuel num served ready es raised =
      after a fuel (runBlockwise a.fail num served ready es raised).err
        (runBlockwise a.fail num served ready es raised).val := by
  have hs := step_fits (fail := a.fail) (num := num) (init_fits served) (.recruit ready)
  change Fits (Lost a.fail ((PWorld.init served).recruit a.fail num ready))
    ((PWorld.init served).recruit a.fail num ready).val at hs
  unfold Recruits at hr
  unfold runServer runBlockwise
  rcases hq : (PWorld.init served).recruit a.fail num ready with ⟨err, w⟩
  rw [hq] at hs hr
  simp only at hr
  subst hr
  exact tryLoop_eq a fuel raised es (hs.mono fun j ⟨e', he, _⟩ => by cases he)

/-- C104, partial: if the workers for the tasks that are ready at the beginning can be started, the claim holds whatever
happens in the event loop, and `run_blockwise` still raises what ended the event loop.  Missing: it fails if one of them
cannot be started (`C104_recruit`). -/
theorem C104_announced_partial (a : Around O) (fuel : Nat) (served ready : List T) (es : List (PEv T))
    (raised : Option PyErr) (hq : ∀ o ∈ a.observers, QuietObs a.cb o) (hf : a.observers.length < fuel)
    (hr : Recruits a.fail num served ready) :
    ∃ L, runServer a fuel num served ready es raised = some L ∧
      L.exit = some ⟨a.observers, a.observers, none⟩ ∧ (∀ s ∈ L.streams, s.closed = true) ∧
      L.streams.length = a.streams.length ∧ L.err = (runBlockwise a.fail num served ready es raised).err ∧
      L.world = (runBlockwise a.fail num served ready es raised).val := by
  obtain ⟨k, rfl⟩ : ∃ k, fuel = k + 1 + a.observers.length := ⟨fuel - 1 - a.observers.length, by omega⟩
  rw [runServer_eq a _ raised served ready es hr, after, C76_each_once_partial a.cb a.observers hq k]
  refine ⟨_, rfl, rfl, ?_, by simp, rfl, rfl⟩
  intro s hs
  obtain ⟨s', _, rfl⟩ := List.mem_map.1 hs
  rfl

/-- C104: the connection of a client is really closed, unless closing it fails. -/
theorem C104_connections (a : Around O) (fuel : Nat) (served ready : List T) (es : List (PEv T))
    (raised : Option PyErr) (hr : Recruits a.fail num served ready)
    (hs : ∀ s ∈ a.streams, s.stuck = false ∧ (s.attached = false → s.isOpen = false)) {L : Left T O}
    (h : runServer a fuel num served ready es raised = some L) : ∀ s ∈ L.streams, s.isOpen = false := by
  rw [runServer_eq a _ raised served ready es hr, after] at h
  split at h
  · cases h
  · cases h
    intro s hm
    obtain ⟨s', hm', rfl⟩ := List.mem_map.1 hm
    obtain ⟨h1, h2⟩ := hs s' hm'
    unfold CStream.close
    cases ha : s'.attached with
    | true => simp [h1]
    | false => simp [h2 ha]

/-- C104: the exit is announced exactly if the first workers could be started. -/
theorem C104_iff (a : Around O) (fuel : Nat) (served ready : List T) (es : List (PEv T)) (raised : Option PyErr)
    {L : Left T O} (h : runServer a fuel num served ready es raised = some L) :
    L.exit.isSome = true ↔ Recruits a.fail num served ready := by
  constructor
  · intro hx
    unfold runServer at h
    unfold Recruits
    rcases hq : (PWorld.init served).recruit a.fail num ready with ⟨err, w⟩
    rw [hq] at h
    cases err with
    | none => rfl
    | some e => cases h; cases hx
  · intro hr
    rw [runServer_eq a _ raised served ready es hr, after] at h
    split at h
    · cases h
    · cases h; rfl

/-- C104: otherwise nobody is told, no stream is closed, no worker is stopped, and `run_blockwise` raises. -/
theorem C104_recruit (a : Around O) (fuel : Nat) (served ready : List T) (es : List (PEv T)) (raised : Option PyErr)
    (hr : ¬ Recruits a.fail num served ready) : ∃ e w, (PWorld.init served).recruit a.fail num ready = ⟨some e, w⟩ ∧
      runServer a fuel num served ready es raised = some ⟨some e, w, a.streams, none⟩ := by
  unfold Recruits at hr
  unfold runServer
  rcases hq : (PWorld.init served).recruit a.fail num ready with ⟨err, w⟩
  rw [hq] at hr
  cases err with
  | none => exact absurd rfl hr
  | some e => exact ⟨e, w, rfl, rfl⟩

/-- C104: an observer that raises keeps those after it from being told, and hides how the event loop ended. -/
theorem C104_observer (a : Around O) (fuel : Nat) (served ready : List T) (es : List (PEv T)) (raised : Option PyErr)
    (hr : Recruits a.fail num served ready) {b c : List O} {o : O} {e : PyErr} (ho : a.observers = b ++ o :: c)
    (hb : ∀ p ∈ b, QuietObs a.cb p) (h1 : (a.cb o).ops = []) (h2 : (a.cb o).raises = some e)
    (hf : b.length < fuel) : ∃ L, runServer a fuel num served ready es raised = some L ∧ L.err = some e ∧
      L.exit = some ⟨a.observers, b ++ [o], some e⟩ ∧ ∀ s ∈ L.streams, s.closed = true := by
  obtain ⟨k, rfl⟩ : ∃ k, fuel = k + 1 + b.length := ⟨fuel - 1 - b.length, by omega⟩
  rw [runServer_eq a _ raised served ready es hr, after, ho, C76_exception a.cb b c o e hb h1 h2 k]
  refine ⟨_, rfl, rfl, rfl, ?_⟩
  intro s hs
  obtain ⟨s', _, rfl⟩ := List.mem_map.1 hs
  rfl

/-- Two tasks; a worker of the first one fails and cannot be replaced.  Both observers are told, the stream is closed. -/
def Ex.around : Around (Fin 2) where
  fail := fun i => if i = 3 then some .osError else none
  streams := [⟨true, true, false⟩, ⟨false, false, false⟩]
  observers := [0, 1]
  cb := fun _ => ⟨[], none⟩

example : Recruits (T := Fin 2) Ex.around.fail (fun _ => 2) [0, 1] [0] := by unfold Recruits; decide

example :
    let r := runServer (T := Fin 2) Ex.around 3 (fun _ => 2) [0, 1] [0] [.exit 0 1, .recruit [1]] none
    r.map (fun L => (L.err, L.streams, L.exit)) =
      some (some .osError, [⟨false, false, false⟩, ⟨false, false, false⟩], some ⟨[0, 1], [0, 1], none⟩) := by
  decide

/-- C104 is false: the workers of the second task cannot be started. -/
theorem C104_false : ¬ C104_statement := by
  intro hC
  obtain ⟨⟨r, h1, _⟩, _⟩ := hC (Fin 2) (Fin 2) Ex.around (fun _ => 2) [0, 1] [0, 1] [] none 3 _
    (fun o _ => ⟨rfl, rfl⟩) (by decide) rfl
  cases h1

/-! ### The serial server -/

section

variable {N T K : Type} [DecidableEq N] [DecidableEq T] [DecidableEq K] {g : DGraph N T K} {served : List T}
  {ks : List (SerTick N T)} {σ : Serial N T K}

/-- C104, partial, for the serial server: it announces its exit once, as the last thing that it does, when it leaves the
loop.  Missing: it does not leave the loop if a process function raises (`C104_serial_false`). -/
theorem C104_serial_partial (hg : g.Loose) (h : SerRun g served ks σ) :
    (σ.ended = true ∧ ∃ before, σ.out = before ++ [.exit] ∧ .exit ∉ before) ∨ (σ.ended = false ∧ .exit ∉ σ.out) := by
  induction h with
  | init => exact Or.inr ⟨rfl, by simp [Serial.init]⟩
  | @pass ks σ σ' k hr he hpick hp ih =>
    have hn : SerOut.exit ∉ σ.out := by
      rcases ih with h | h
      · rw [h.1] at he; cases he
      · exact h.2
    rcases pass_cases hg (hr.inv hg) he hpick with ⟨σ1, sk, h1, h2⟩ | ⟨sk, n, st, _, _, h1 | h1 | ⟨σ1, h1, h2⟩⟩
    · rw [h1] at hp; cases hp
      exact Or.inl ⟨h2.ended, _, h2.out, by simp [hn]⟩
    · rw [h1.2] at hp; cases hp
    · rw [h1.2.2] at hp; cases hp
    · rw [h1] at hp; cases hp
      obtain ⟨s, d, e, h3, h4, h5, h6⟩ := h2.out
      have hs : SerOut.exit ∉ s := by rw [h4]; split <;> simp
      have hd : SerOut.exit ∉ d := by rw [h5]; split <;> simp
      rw [h3, h6]
      cases hx : σ'.ended with
      | true => exact Or.inl ⟨rfl, _, rfl, by simp [hn, hs, hd]⟩
      | false => exact Or.inr ⟨rfl, by simp [hn, hs, hd]⟩

/-- C104: as long as the serial server is in the loop, and so also if a pass raises, it has not announced its exit. -/
theorem C104_serial_raises (hg : g.Loose) (h : SerRun g served ks σ) (he : σ.ended = false) : .exit ∉ σ.out := by
  rcases C104_serial_partial hg h with h | h
  · rw [h.1] at he; cases he
  · exact h.2

end

/-- C104 is false of the serial server: the process function raises, and `run_blockwise` is left without the exit having
been announced. -/
theorem C104_serial_false : ∃ (k : SerTick (Fin 1) (Fin 1)) (σ : Serial (Fin 1) (Fin 1) (Fin 1)),
    Ex.one.OK ∧ SerRun Ex.one [0] [] σ ∧ σ.ended = false ∧ LegalPick k.pick ∧
    σ.pass Ex.one [0] k = .error .userException ∧ .exit ∉ σ.out := by
  obtain ⟨σ, h1, h2, h3⟩ := serExec_raises (g := Ex.one) (served := [0]) (ks := []) (e := .userException)
    (k := { serTick pickMin with proc := fun _ => .raises }) (by simp) (by decide +kernel)
  exact ⟨_, σ, Ex.one_ok, h1, h2, pickMin_legal, h3, C104_serial_raises Ex.one_ok h1 h2⟩

/-- A run of the serial server that announces its exit. -/
example : (serExec Ex.one [0] [serTick pickMin]).map (fun σ => (σ.ended, σ.out.getLast?)) =
    some (true, some .exit) := by decide +kernel

end Verif
