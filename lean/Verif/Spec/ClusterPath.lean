import Verif.Spec.ClusterExec
import Verif.Spec.ClusterFair

/-! # Concrete executions that end -/

namespace Verif

open Spec

variable {N T K S : Type} [DecidableEq N] [DecidableEq T] [DecidableEq K] [DecidableEq S]

/-- Run events one after the other, until the server stops. -/
def clPathFrom (g : DGraph N T K) (c : SysConf T) :
    List (ClEv N T S) → Cluster N T K S → Option (Cluster N T K S)
  | [], x => some x
  | e :: es, x =>
    if x.sys.srv.stop = false ∧ clLegalB c x e = true then
      match x.step g c e with
      | .ok x' => clPathFrom g c es x'
      | .error _ => none
    else none

/-- Run events from the beginning. -/
def clPath (g : DGraph N T K) (c : SysConf T) (es : List (ClEv N T S)) : Option (Cluster N T K S) :=
  match Cluster.init g c with
  | .ok x => clPathFrom g c es x
  | .error _ => none

theorem clPathFrom_forever {g : DGraph N T K} {c : SysConf T} (e0 : ClEv N T S) :
    ∀ (es : List (ClEv N T S)) (x y : Cluster N T K S), (∀ e ∈ es, ClPicks e) → clPathFrom g c es x = some y →
      y.sys.srv.stop = true → ∃ (X : Nat → Cluster N T K S) (E : Nat → ClEv N T S), X 0 = x ∧
        (∀ i, (X i).sys.srv.stop = true → X (i + 1) = X i) ∧
        (∀ i, (X i).sys.srv.stop = false → E i ∈ es ∧ LegalCl c (X i) (E i) ∧
          (X i).step g c (E i) = .ok (X (i + 1))) ∧ X es.length = y
  | [], x, y, _, he, hs => by
    cases he
    exact ⟨fun _ => x, fun _ => e0, rfl, fun _ _ => rfl, (fun i h => by rw [hs] at h; cases h), rfl⟩
  | e :: es, x, y, hp, he, hs => by
    simp only [clPathFrom] at he
    split at he
    · rename_i hc
      split at he
      · rename_i x1 h1
        obtain ⟨X, E, g1, g2, g3, g4⟩ := clPathFrom_forever e0 es x1 y (fun e' he' => hp e' (List.mem_cons_of_mem _ he')) he hs
        refine ⟨fun i => match i with | 0 => x | i + 1 => X i, fun i => match i with | 0 => e | i + 1 => E i, rfl,
          ?_, ?_, g4⟩
        · intro i hi
          cases i with
          | zero => rw [hc.1] at hi; cases hi
          | succ i => exact g2 i hi
        · intro i hi
          cases i with
          | zero =>
            refine ⟨List.mem_cons_self, clLegal_of (hp e List.mem_cons_self) hc.2, ?_⟩
            dsimp only
            rw [g1]
            exact h1
          | succ i =>
            obtain ⟨g5, g6⟩ := g3 i hi
            exact ⟨List.mem_cons_of_mem _ g5, g6⟩
      · cases he
    · cases he

/-- Executions that end are fair. -/
theorem clPath_forever {g : DGraph N T K} {c : SysConf T} (e0 : ClEv N T S) {es : List (ClEv N T S)} (hp : ∀ e ∈ es, ClPicks e)
    {α : Type} {f : Cluster N T K S → α} {v : α} (h : (clPath g c es).map f = some v)
    (hs : ∀ y, f y = v → y.sys.srv.stop = true) : ∃ (X : Nat → Cluster N T K S) (E : Nat → ClEv N T S),
      ClForever g c X E ∧ (∃ i, f (X i) = v) ∧ ClFair g X E ∧ ∀ i, (X i).sys.srv.stop = false → E i ∈ es := by
  unfold clPath at h
  split at h
  · next x hx =>
    rcases he : clPathFrom g c es x with _ | y
    · rw [he] at h; cases h
    · rw [he] at h
      have hy : f y = v := by simpa using h
      obtain ⟨X, E, h1, h2, h3, h4⟩ := clPathFrom_forever e0 es x y hp he (hs y hy)
      have hstop : ∀ d, (X (es.length + d)).sys.srv.stop = true := by
        intro d
        induction d with
        | zero => rw [Nat.add_zero, h4]; exact hs y hy
        | succ d ih => rw [← Nat.add_assoc, h2 _ ih]; exact ih
      have hev : ∀ i, ∃ j, i ≤ j ∧ (X j).sys.srv.stop = true := fun i => ⟨es.length + i, by omega, hstop i⟩
      have hev' : ∀ i, ∃ j, i < j ∧ (X j).sys.srv.stop = true := fun i => ⟨es.length + (i + 1), by omega, hstop _⟩
      refine ⟨X, E, ⟨by rw [h1]; exact hx, h2, fun i hi => (h3 i hi).2.1, fun i hi => (h3 i hi).2.2⟩,
        ⟨es.length, by rw [h4]; exact hy⟩, ⟨⟨?_, ?_, ?_, ?_, ?_, ?_⟩, ?_, ?_⟩, fun i hi => (h3 i hi).1⟩
      · intro i _ _ _ _; obtain ⟨j, g1, g2⟩ := hev i; exact ⟨j, g1, Or.inl g2⟩
      · intro i _ _ _ _ _; obtain ⟨j, g1, g2⟩ := hev i; exact ⟨j, g1, Or.inl g2⟩
      · intro i _ _ _ _; obtain ⟨j, g1, g2⟩ := hev i; exact ⟨j, g1, Or.inl g2⟩
      · intro i; obtain ⟨j, g1, g2⟩ := hev i; exact ⟨j, g1, Or.inl g2⟩
      · intro i; obtain ⟨j, g1, g2⟩ := hev i; exact ⟨j, g1, Or.inl g2⟩
      · intro i _ _; obtain ⟨j, _, g2⟩ := hev i; exact ⟨j, Or.inl g2⟩
      · intro i _ _ _ _; obtain ⟨j, g1, g2⟩ := hev i; exact ⟨j, g1, Or.inl g2⟩
      · intro i _ _; obtain ⟨j, g1, g2⟩ := hev' i; exact Or.inr ⟨j, g1, Or.inl g2⟩
  · cases h

end Verif
