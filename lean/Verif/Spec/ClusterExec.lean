import Verif.Spec.ClusterSpec
import Verif.Spec.SystemExec

/-! # Concrete executions of the server with its workers -/

namespace Verif

open Spec

variable {N T K S : Type} [DecidableEq N] [DecidableEq T] [DecidableEq K] [DecidableEq S]

/-- A connection with a property. -/
def connB (x : Cluster N T K S) (s : S) (f : Conn N T → Bool) : Bool :=
  match x.conn s with
  | none => false
  | some k => f k

/-- The process has ended. -/
def overB {B : Type} : Phase B → Bool
  | .ended _ => true
  | .killed => true
  | _ => false

/-- The part of `LegalCl` that can be computed. -/
def clLegalB (c : SysConf T) (x : Cluster N T K S) : ClEv N T S → Bool
  | .connect s t _ => (x.conn s).isNone && decide (s ∉ x.sys.closed ∧ t ∈ c.cfg.served)
  | .client s _ => connB x s (fun k => !overB k.phase)
  | .kill s => connB x s (fun k => !overB k.phase)
  | .up s => decide (s ∉ x.sys.closed) && connB x s (fun k => !k.gone && !k.tcp.outbox.isEmpty)
  | .down s => connB x s (fun k => !k.down.isEmpty)
  | .breaks s e => connB x s (fun _ => true) && match e with
    | .fails err => decide (err ≠ .unexpectedMessage)
    | .writeFails => true
    | _ => false
  | .sys (.arrive _ _) => false
  | .sys (.close s) => decide (s ∉ x.sys.closed) && connB x s (fun k => !k.gone)
  | .sys (.proc _) => true
  | .sys (.loop k) => !x.sys.srv.stop && k.closing.all (fun s => connB x s (fun q => !q.gone))

/-- Run events one after the other. -/
def clExecFrom (g : DGraph N T K) (c : SysConf T) :
    List (ClEv N T S) → Cluster N T K S → Option (Cluster N T K S)
  | [], x => some x
  | e :: es, x =>
    if clLegalB c x e = true then
      match x.step g c e with
      | .ok x' => clExecFrom g c es x'
      | .error _ => none
    else none

/-- Run events from the beginning. -/
def clExec (g : DGraph N T K) (c : SysConf T) (es : List (ClEv N T S)) : Option (Cluster N T K S) :=
  match Cluster.init g c with
  | .ok x => clExecFrom g c es x
  | .error _ => none

/-- Iterations with legal choices. -/
def ClPicks (e : ClEv N T S) : Prop :=
  ∀ k, e = .sys (.loop k) → LegalPick k.pick ∧ ∀ n, LegalPick (k.pickLost n)

omit [DecidableEq N] [DecidableEq T] [DecidableEq K] [DecidableEq S] in
theorem connB_iff {x : Cluster N T K S} {s : S} {f : Conn N T → Bool} :
    connB x s f = true ↔ ∃ k, x.conn s = some k ∧ f k = true := by
  unfold connB
  rcases x.conn s with _ | k <;> simp

theorem overB_iff {B : Type} {ph : Phase B} : (!overB ph) = true ↔ ¬ Phase.Over ph := by
  cases ph <;> simp [overB, Phase.Over]

omit [DecidableEq N] [DecidableEq K] in
theorem clLegal_of {c : SysConf T} {x : Cluster N T K S} {e : ClEv N T S} (hp : ClPicks e)
    (h : clLegalB c x e = true) : LegalCl c x e := by
  cases e with
  | connect s t w =>
    simp only [clLegalB, Bool.and_eq_true, Option.isNone_iff_eq_none, decide_eq_true_eq] at h
    exact h
  | client s body =>
    obtain ⟨k, h1, h2⟩ := connB_iff.1 h
    exact ⟨k, h1, overB_iff.1 h2⟩
  | kill s =>
    obtain ⟨k, h1, h2⟩ := connB_iff.1 h
    exact ⟨k, h1, overB_iff.1 h2⟩
  | up s =>
    simp only [clLegalB, Bool.and_eq_true, decide_eq_true_eq] at h
    obtain ⟨k, h1, h2⟩ := connB_iff.1 h.2
    simp only [Bool.and_eq_true, Bool.not_eq_true', List.isEmpty_eq_false_iff] at h2
    exact ⟨h.1, k, h1, h2⟩
  | down s =>
    obtain ⟨k, h1, h2⟩ := connB_iff.1 h
    simp only [Bool.not_eq_true', List.isEmpty_eq_false_iff] at h2
    exact ⟨k, h1, h2⟩
  | breaks s e =>
    simp only [clLegalB, Bool.and_eq_true] at h
    obtain ⟨k, h1, _⟩ := connB_iff.1 h.1
    refine ⟨⟨k, h1⟩, ?_⟩
    have h2 := h.2
    cases e with
    | arrives m => cases h2
    | ack => cases h2
    | fails err => exact Or.inl ⟨err, rfl, of_decide_eq_true h2⟩
    | writeFails => exact Or.inr rfl
  | sys e =>
    cases e with
    | arrive m s => cases h
    | close s =>
      simp only [clLegalB, Bool.and_eq_true, decide_eq_true_eq] at h
      obtain ⟨k, h1, h2⟩ := connB_iff.1 h.2
      exact ⟨h.1, k, h1, by simpa using h2⟩
    | proc p => trivial
    | loop k =>
      simp only [clLegalB, Bool.and_eq_true, Bool.not_eq_true', List.all_eq_true] at h
      refine ⟨h.1, hp k rfl, fun s hs => ?_⟩
      obtain ⟨q, h1, h2⟩ := connB_iff.1 (h.2 s hs)
      exact ⟨q, h1, by simpa using h2⟩

theorem clExecFrom_run {g : DGraph N T K} {c : SysConf T} :
    ∀ (es es₀ : List (ClEv N T S)) (x y : Cluster N T K S), (∀ e ∈ es, ClPicks e) →
      ClRun g c es₀ x → clExecFrom g c es x = some y → ClRun g c (es₀ ++ es) y
  | [], es₀, x, y, _, h, he => by
    cases he
    simpa using h
  | e :: es, es₀, x, y, hp, h, he => by
    simp only [clExecFrom] at he
    split at he
    · rename_i hc
      split at he
      · rename_i x1 h1
        have := clExecFrom_run es (es₀ ++ [e]) x1 y (fun e' he' => hp e' (List.mem_cons_of_mem _ he'))
          (.step e h (clLegal_of (hp e List.mem_cons_self) hc) h1) he
        simpa using this
      · cases he
    · cases he

theorem clExec_run {α : Type} {g : DGraph N T K} {c : SysConf T} {es : List (ClEv N T S)}
    (hp : ∀ e ∈ es, ClPicks e) (f : Cluster N T K S → α) {v : α} (h : (clExec g c es).map f = some v) :
    ∃ x, ClRun g c es x ∧ f x = v := by
  unfold clExec at h
  split at h
  · next x hx =>
    rcases he : clExecFrom g c es x with _ | y
    · rw [he] at h; cases h
    · rw [he] at h
      exact ⟨y, by simpa using clExecFrom_run es [] x y hp (.init hx) he, by simpa using h⟩
  · cases h

/-- Events for examples. -/
inductive SimpleCl (N T S : Type) where
  | connect (s : S) (t : T)
  | client (s : S)
  /-- the process function raises an exception -/
  | fail (s : S)
  /-- the process function is interrupted -/
  | interrupt (s : S)
  /-- the client notices that its connection is lost -/
  | breaks (s : S)
  | kill (s : S)
  | up (s : S)
  | down (s : S)
  | close (s : S)
  | loop

/-- The events they stand for. -/
def SimpleCl.ev (pick : Nat → Finset N → N) : SimpleCl N T S → ClEv N T S
  | .connect s t => .connect s t 0
  | .client s => .client s ⟨.enum .processing, none⟩
  | .fail s => .client s ⟨.enum .processing, some (.exception "ValueError")⟩
  | .interrupt s => .client s ⟨.enum .processing, some (.base "KeyboardInterrupt")⟩
  | .breaks s => .breaks s (.fails .streamClosed)
  | .kill s => .kill s
  | .up s => .up s
  | .down s => .down s
  | .close s => .sys (.close s)
  | .loop => .sys (.loop (envOf pick))

omit [DecidableEq N] [DecidableEq T] [DecidableEq S] in
theorem simpleCl_legal {pick : Nat → Finset N → N} (hp : LegalPick pick) (l : List (SimpleCl N T S)) :
    ∀ e ∈ l.map (SimpleCl.ev pick), ClPicks e := by
  intro e he
  obtain ⟨a, _, rfl⟩ := List.mem_map.1 he
  cases a with
  | loop => intro k h; cases h; exact ⟨hp, fun _ => hp⟩
  | _ => intro k h; cases h

end Verif
