import Verif.Spec.SystemSpec
import Verif.Spec.ServerExec

/-! # Concrete executions of the whole system -/

namespace Verif

open Spec

variable {N T K S : Type} [DecidableEq N] [DecidableEq T] [DecidableEq K] [DecidableEq S]

/-- An iteration in which the streams `closing` are closed and the processes do `procs`. -/
def envOf (pick : Nat → Finset N → N) (closing : List S := []) (procs : List (ProcEv T) := []) :
    LoopEnv N T S where
  chk := fun _ _ => .reject
  pick := pick
  now := 0
  clock := fun _ => 0
  pickLost := fun _ => pick
  late := false
  closing := closing
  procs := procs

/-- The part of `LegalEv` that can be computed. -/
def legalB (g : DGraph N T K) (c : SysConf T) (x : Sys N T K S) : SysEv N T S → Bool
  | .arrive m s => decide (s ∉ x.closed ∧ GoodMsg g c.cfg m)
  | .close s => decide (s ∉ x.closed)
  | .proc _ => true
  | .loop _ => decide (x.srv.stop = false)

/-- Run events one after the other; `q` checks their behaviour.  The second result are the delivered blocks. -/
def sysExecFrom (g : DGraph N T K) (c : SysConf T) (q : Sys N T K S → SysEv N T S → Bool) :
    List (SysEv N T S) → Sys N T K S → List N → Option (Sys N T K S × List N)
  | [], x, ns => some (x, ns)
  | e :: es, x, ns =>
    if legalB g c x e = true ∧ q x e = true then
      match x.step g c e with
      | .ok x' => sysExecFrom g c q es x' (ns ++ deliveredBy x x')
      | .error _ => none
    else none

/-- Run events on a new system. -/
def sysExec (g : DGraph N T K) (c : SysConf T) (q : Sys N T K S → SysEv N T S → Bool) (es : List (SysEv N T S)) :
    Option (Sys N T K S × List N) :=
  match Sys.init g c with
  | .ok x => sysExecFrom g c q es x []
  | .error _ => none

/-- Iterations with legal choices. -/
def LegalPicks (e : SysEv N T S) : Prop :=
  ∀ k, e = .loop k → LegalPick k.pick ∧ ∀ n, LegalPick (k.pickLost n)

omit [DecidableEq K] in
theorem legal_of_legalB {g : DGraph N T K} {c : SysConf T} {x : Sys N T K S} {e : SysEv N T S}
    (hp : LegalPicks e) (h : legalB g c x e = true) : LegalEv g c x e := by
  cases e with
  | arrive m s => exact of_decide_eq_true (p := s ∉ x.closed ∧ GoodMsg g c.cfg m) h
  | close s => exact of_decide_eq_true (p := s ∉ x.closed) h
  | proc p => trivial
  | loop k => exact ⟨of_decide_eq_true h, hp k rfl⟩

theorem sysExecFrom_run {g : DGraph N T K} {c : SysConf T} {q : Sys N T K S → SysEv N T S → Bool}
    {P : Sys N T K S → SysEv N T S → Prop} (hq : ∀ x e, q x e = true → P x e) :
    ∀ (es es₀ : List (SysEv N T S)) (x y : Sys N T K S) (ns ms : List N), (∀ e ∈ es, LegalPicks e) →
      SysRun g c P es₀ x → SysDeliv g c P es₀ x ns → sysExecFrom g c q es x ns = some (y, ms) →
      SysRun g c P (es₀ ++ es) y ∧ SysDeliv g c P (es₀ ++ es) y ms
  | [], es₀, x, y, ns, ms, _, h, hd, he => by
    cases he
    simpa using ⟨h, hd⟩
  | e :: es, es₀, x, y, ns, ms, hp, h, hd, he => by
    simp only [sysExecFrom] at he
    split at he
    · rename_i hc
      split at he
      · rename_i x1 h1
        have hl := legal_of_legalB (hp e List.mem_cons_self) hc.1
        have := sysExecFrom_run hq es (es₀ ++ [e]) x1 y _ ms (fun e' he' => hp e' (List.mem_cons_of_mem _ he'))
          (.step e h hl (hq _ _ hc.2) h1) (.step e hd hl (hq _ _ hc.2) h1) he
        simpa using this
      · cases he
    · cases he

theorem sysExec_run {α : Type} {g : DGraph N T K} {c : SysConf T} {q : Sys N T K S → SysEv N T S → Bool}
    {P : Sys N T K S → SysEv N T S → Prop} (hq : ∀ x e, q x e = true → P x e) {es : List (SysEv N T S)}
    (hp : ∀ e ∈ es, LegalPicks e) (f : Sys N T K S × List N → α) {v : α}
    (h : (sysExec g c q es).map f = some v) :
    ∃ x ns, SysRun g c P es x ∧ SysDeliv g c P es x ns ∧ f (x, ns) = v := by
  unfold sysExec at h
  split at h
  · next x hx =>
    rcases he : sysExecFrom g c q es x [] with _ | ⟨y, ms⟩
    · rw [he] at h; cases h
    · rw [he] at h
      obtain ⟨h1, h2⟩ := sysExecFrom_run hq es [] x y [] ms hp (.init hx) (.init hx) he
      exact ⟨y, ms, by simpa using h1, by simpa using h2, by simpa using h⟩
  · cases h

theorem sysExecFrom_steps {g : DGraph N T K} {c : SysConf T} {q : Sys N T K S → SysEv N T S → Bool}
    {P : Sys N T K S → SysEv N T S → Prop} (hq : ∀ x e, q x e = true → P x e) {x₀ : Sys N T K S} :
    ∀ (es es₀ : List (SysEv N T S)) (x y : Sys N T K S) (ns ms : List N), (∀ e ∈ es, LegalPicks e) →
      SysSteps g c P x₀ es₀ x → sysExecFrom g c q es x ns = some (y, ms) → SysSteps g c P x₀ (es₀ ++ es) y
  | [], es₀, x, y, ns, ms, _, h, he => by
    cases he
    simpa using h
  | e :: es, es₀, x, y, ns, ms, hp, h, he => by
    simp only [sysExecFrom] at he
    split at he
    · rename_i hc
      split at he
      · rename_i x1 h1
        have hl := legal_of_legalB (hp e List.mem_cons_self) hc.1
        have := sysExecFrom_steps hq es (es₀ ++ [e]) x1 y _ ms (fun e' he' => hp e' (List.mem_cons_of_mem _ he'))
          (.step e h hl (hq _ _ hc.2) h1) he
        simpa using this
      · cases he
    · cases he

/-- An execution in two pieces. -/
theorem sysExec_run2 {α : Type} {g : DGraph N T K} {c : SysConf T} {q : Sys N T K S → SysEv N T S → Bool}
    {P : Sys N T K S → SysEv N T S → Prop} (hq : ∀ x e, q x e = true → P x e) {es es' : List (SysEv N T S)}
    (hp : ∀ e ∈ es, LegalPicks e) (hp' : ∀ e ∈ es', LegalPicks e) (f : Sys N T K S → Sys N T K S → α) {v : α}
    (h : (sysExec g c q es).bind (fun r => (sysExecFrom g c q es' r.1 []).map (fun r' => f r.1 r'.1)) = some v) :
    ∃ x y, SysRun g c P es x ∧ SysSteps g c P x es' y ∧ f x y = v := by
  obtain ⟨⟨x, ns⟩, h1, h2⟩ := Option.bind_eq_some_iff.1 h
  obtain ⟨⟨y, ms⟩, h3, h4⟩ := Option.map_eq_some_iff.1 h2
  obtain ⟨x', ns', h5, _, h6⟩ := sysExec_run hq hp id (v := (x, ns)) (by rw [h1]; rfl)
  cases h6
  have h7 := sysExecFrom_steps hq es' [] x y [] ms hp' .nil h3
  exact ⟨x, y, h5, by simpa using h7, h4⟩

/-- Iterations on blocks `0, …, k-1`. -/
def evLoop {k : Nat} [NeZero k] (closing : List S := []) (procs : List (ProcEv T) := []) : SysEv (Fin k) T S :=
  .loop (envOf pickMin closing procs)

omit [DecidableEq T] [DecidableEq S] in
theorem evLoop_legal {k : Nat} [NeZero k] (closing : List S) (procs : List (ProcEv T)) :
    LegalPicks (evLoop closing procs : SysEv (Fin k) T S) := by
  intro k h
  cases h
  exact ⟨pickMin_legal, fun _ => pickMin_legal⟩

/-- Events for examples. -/
inductive SimpleEv (N T S : Type) where
  | msg (m : Msg N T) (s : S)
  | close (s : S)
  | proc (p : ProcEv T)
  | loop (closing : List S) (procs : List (ProcEv T))

/-- The events they stand for. -/
def SimpleEv.ev {k : Nat} [NeZero k] : SimpleEv (Fin k) T S → SysEv (Fin k) T S
  | .msg m s => .arrive m s
  | .close s => .close s
  | .proc p => .proc p
  | .loop cl pr => evLoop cl pr

omit [DecidableEq T] [DecidableEq S] in
theorem simple_legal {k : Nat} [NeZero k] (l : List (SimpleEv (Fin k) T S)) :
    ∀ e ∈ l.map SimpleEv.ev, LegalPicks e := by
  intro e he
  obtain ⟨a, _, rfl⟩ := List.mem_map.1 he
  cases a with
  | loop cl pr => exact evLoop_legal cl pr
  | _ => intro k h; cases h

end Verif
