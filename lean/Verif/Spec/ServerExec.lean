import Verif.Spec.ServerSpec
import Verif.Spec.Exec

/-! # Concrete executions of the server -/

namespace Verif

open Spec

variable {N T K S : Type} [DecidableEq N] [DecidableEq T] [DecidableEq K] [DecidableEq S]

instance (g : DGraph N T K) (cfg : SConf T) (m : Msg N T) : Decidable (GoodMsg g cfg m) := by
  cases m <;> unfold GoodMsg <;> infer_instance

/-- One iteration in which the check function accepts the blocks `acc`, the streams `closed` are closed,
and `pick` chooses elements of sets. -/
def tick (pick : Nat → Finset N → N) (recv : Server.Recv N T S) (acc : List N := [])
    (closed : List S := []) (now : Int := 0) : Server.Tick N T S where
  recv := recv
  chk := fun _ n => if n ∈ acc then .accept else .reject
  pick := pick
  now := now
  closed := fun s => decide (s ∈ closed)
  clock := fun _ => now
  pickLost := fun _ => pick
  late := false

/-- What a tick receives is acceptable. -/
def goodRecv (g : DGraph N T K) (cfg : SConf T) : Server.Recv N T S → Bool
  | .msg m _ => decide (GoodMsg g cfg m)
  | _ => true

/-- Run iterations one after the other. -/
def sexecFrom (g : DGraph N T K) (cfg : SConf T) :
    List (Server.Tick N T S) → Server N T K S → Option (Server N T K S)
  | [], σ => some σ
  | k :: ks, σ =>
    if σ.stop = false ∧ goodRecv g cfg k.recv = true then
      match σ.iteration g cfg k with
      | .ok σ' => sexecFrom g cfg ks σ'
      | .error _ => none
    else none

theorem sexecFrom_steps {g : DGraph N T K} {cfg : SConf T} {σ₀ : Server N T K S} :
    ∀ (ks ks₀ : List (Server.Tick N T S)) (σ σ' : Server N T K S),
      (∀ k ∈ ks, LegalPick k.pick ∧ ∀ n, LegalPick (k.pickLost n)) → SSteps g cfg σ₀ ks₀ σ →
      sexecFrom g cfg ks σ = some σ' → SSteps g cfg σ₀ (ks₀ ++ ks) σ'
  | [], ks₀, σ, σ', _, h, he => by cases he; simpa using h
  | k :: ks, ks₀, σ, σ', hp, h, he => by
    simp only [sexecFrom] at he
    split at he
    · rename_i hc
      split at he
      · rename_i σ1 h1
        have hgood : GoodTick g cfg k := by
          refine ⟨?_, (hp k List.mem_cons_self).1, (hp k List.mem_cons_self).2⟩
          intro m s hr
          have := hc.2
          rw [hr] at this
          exact of_decide_eq_true this
        have := sexecFrom_steps ks (ks₀ ++ [k]) σ1 σ' (fun k' hk' => hp k' (List.mem_cons_of_mem _ hk'))
          (SSteps.step k h hc.1 hgood h1) he
        simpa using this
      · cases he
    · cases he

/-- Run iterations on a new server. -/
def sexec (g : DGraph N T K) (cfg : SConf T) (ks : List (Server.Tick N T S)) :
    Option (Server N T K S) := sexecFrom g cfg ks (Server.init g)

theorem sexec_run {α : Type} {g : DGraph N T K} {cfg : SConf T} {ks : List (Server.Tick N T S)}
    (hp : ∀ k ∈ ks, LegalPick k.pick ∧ ∀ n, LegalPick (k.pickLost n)) (f : Server N T K S → α) {v : α}
    (h : (sexec g cfg ks).map f = some v) : ∃ σ, SRun g cfg ks σ ∧ f σ = v := by
  rcases he : sexec g cfg ks with _ | σ
  · rw [he] at h; cases h
  · rw [he] at h
    have := SRun.init.steps (sexecFrom_steps ks [] _ σ hp SSteps.nil he)
    exact ⟨σ, by simpa using this, by simpa using h⟩

/-- Iterations in which nothing but the received message is special. -/
def ticks {k : Nat} [NeZero k] (rs : List (Server.Recv (Fin k) T S)) : List (Server.Tick (Fin k) T S) :=
  rs.map (fun r => tick pickMin r)

omit [DecidableEq T] in
theorem ticks_legal {k : Nat} [NeZero k] (rs : List (Server.Recv (Fin k) T S)) :
    ∀ x ∈ ticks rs, LegalPick x.pick ∧ ∀ n, LegalPick (x.pickLost n) := by
  intro x hx
  obtain ⟨r, _, rfl⟩ := List.mem_map.1 hx
  exact ⟨pickMin_legal, fun _ => pickMin_legal⟩

/-- Messages, in the order in which they arrive. -/
def acq {k : Nat} (t : T) (s : S) : Server.Recv (Fin k) T S := .msg (.acquire t) s
def ret {k : Nat} (n : Fin k) (s : S) : Server.Recv (Fin k) T S := .msg (.release n .success) s
def bad {k : Nat} (n : Fin k) (s : S) : Server.Recv (Fin k) T S := .msg (.release n .failed) s

end Verif
