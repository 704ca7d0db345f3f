import Verif.Proofs.PipelineWf
import Verif.Spec.Exec
import Verif.Props.Examples1

/-! # Concrete pipelines used as non-trivial instances and as counterexamples -/

namespace Verif

open Verif.Spec

/-- Membership of all required tasks in a list that is closed under `requires`. -/
theorem required_mem {α : Type} {tasks L : List (TTree α)} (h1 : ∀ t ∈ tasks, t ∈ L)
    (h2 : ∀ t ∈ L, ∀ u ∈ t.requires, u ∈ L) {s : TTree α} (h : Required tasks s) : s ∈ L := by
  obtain ⟨t, ht, hn⟩ := h
  unfold Needs at hn
  induction hn with
  | refl => exact h1 t ht
  | tail _ hu ih => exact h2 _ ih _ hu

theorem uniqueIds_of {α : Type} {tasks L : List (TTree α)} (h1 : ∀ t ∈ tasks, t ∈ L)
    (h2 : ∀ t ∈ L, ∀ u ∈ t.requires, u ∈ L) (h3 : ∀ s ∈ L, ∀ s' ∈ L, s.id = s'.id → s = s') :
    UniqueIds tasks :=
  fun s s' h h' => h3 s (required_mem h1 h2 h) s' (required_mem h1 h2 h')

instance {d : Nat} (r s : Roi d) : Decidable (Overlap r s) :=
  decidable_of_iff _ (BGraph.overlap_iff r s).symm

/-- An oracle for `set.pop`. -/
noncomputable def anyPick {d : Nat} (b : Block d) : Nat → Finset (Block d) → Block d :=
  fun _ s => @dite _ s.Nonempty (Classical.propDecidable _) (fun h => h.choose) (fun _ => b)

theorem anyPick_legal {d : Nat} (b : Block d) : LegalPick (anyPick b) := by
  intro k s h
  unfold anyPick
  rw [dif_pos h]
  exact h.choose_spec

namespace Ex

/-- A one-dimensional task without retries. -/
def task1 (id : Nat) (tot rd wr : Roi 1) (c : Bool) (f : Fit) (ups : List (Task 1)) : Task 1 :=
  .node id ⟨tot, rd, wr, c, f, 0⟩ ups

/-- The pipeline the constructor builds. -/
def pipe (tasks : List (Task 1)) : Pipeline 1 :=
  match Pipeline.init tasks with
  | .ok p => p
  | .error _ => ⟨TaskGraph.empty, fun _ => none⟩

/-- Block of task `t` with read ROI `[a, b)`, write ROI `[c, e)` and number `k`. -/
def blk1 (t : Nat) (a b c e k : Int) : Block 1 := ⟨t, r1 a b, r1 c e, k⟩

/-! A pipeline that satisfies all conditions: context 1 on both sides. -/

/-- Writes `[0,8)` in blocks of 2. -/
def symA : Task 1 := task1 0 (r1 0 8) (r1 0 2) (r1 0 2) false .valid []
/-- Reads `[0,8)`, writes `[1,7)` in blocks of 2 with context 1. -/
def symB : Task 1 := task1 1 (r1 0 8) (r1 0 4) (r1 1 3) true .valid [symA]

/-! Context 2 below, 0 above. -/

/-- Writes `[0,8)` in blocks of 1. -/
def asymA : Task 1 := task1 0 (r1 0 8) (r1 0 1) (r1 0 1) false .valid []
/-- Reads `[0,8)`, writes `[2,8)` in blocks of 2. -/
def asymB : Task 1 := task1 1 (r1 0 8) (r1 0 4) (r1 2 4) true .valid [asymA]

/-! A dependent task whose last block overhangs. -/

/-- Writes `[0,4)` in blocks of 1. -/
def overA : Task 1 := task1 0 (r1 0 4) (r1 0 1) (r1 0 1) false .valid []
/-- Total ROI `[0,3)`, blocks of 2. -/
def overB : Task 1 := task1 1 (r1 0 3) (r1 0 2) (r1 0 2) false .overhang [overA]

/-! An upstream task whose last block overhangs, and a second upstream task. -/

/-- Total ROI `[0,3)`, blocks of 2. -/
def upA : Task 1 := task1 0 (r1 0 3) (r1 0 2) (r1 0 2) false .overhang []
/-- Writes `[0,4)` in blocks of 1. -/
def upA' : Task 1 := task1 1 (r1 0 4) (r1 0 1) (r1 0 1) false .valid []
/-- Reads and writes `[0,4)` in blocks of 1. -/
def upB : Task 1 := task1 2 (r1 0 4) (r1 0 1) (r1 0 1) false .valid [upA, upA']

/-! A dependent task that is larger than its upstream task. -/

/-- Writes `[0,2)`. -/
def smallA : Task 1 := task1 0 (r1 0 2) (r1 0 1) (r1 0 1) false .valid []
/-- Reads and writes `[0,4)`. -/
def bigB : Task 1 := task1 1 (r1 0 4) (r1 0 1) (r1 0 1) false .valid [smallA]

/-! A task without blocks: the total ROI is smaller than a block. -/

/-- `valid`, with conflicts. -/
def noneC : Task 1 := task1 0 (r1 0 3) (r1 0 4) (r1 0 4) true .valid []
/-- `valid`, without conflicts. -/
def noneN : Task 1 := task1 0 (r1 0 3) (r1 0 4) (r1 0 4) false .valid []
/-- Depends on a task without blocks, has no blocks itself and is of the conflict kind. -/
def noneB : Task 1 := task1 1 (r1 0 3) (r1 0 4) (r1 0 4) true .valid [noneN]

theorem sym_unique : UniqueIds [symB] :=
  uniqueIds_of (L := [symA, symB]) (by simp) (by simp [symA, symB, task1, TTree.requires])
    (by simp [symA, symB, task1, TTree.id])
theorem asym_unique : UniqueIds [asymB] :=
  uniqueIds_of (L := [asymA, asymB]) (by simp) (by simp [asymA, asymB, task1, TTree.requires])
    (by simp [asymA, asymB, task1, TTree.id])
theorem over_unique : UniqueIds [overB] :=
  uniqueIds_of (L := [overA, overB]) (by simp) (by simp [overA, overB, task1, TTree.requires])
    (by simp [overA, overB, task1, TTree.id])
theorem up_unique : UniqueIds [upB] :=
  uniqueIds_of (L := [upA, upA', upB]) (by simp) (by simp [upA, upA', upB, task1, TTree.requires])
    (by simp [upA, upA', upB, task1, TTree.id])
theorem big_unique : UniqueIds [bigB] :=
  uniqueIds_of (L := [smallA, bigB]) (by simp) (by simp [smallA, bigB, task1, TTree.requires])
    (by simp [smallA, bigB, task1, TTree.id])
theorem noneC_unique : UniqueIds [noneC] :=
  uniqueIds_of (L := [noneC]) (by simp) (by simp [noneC, task1, TTree.requires]) (by simp)
theorem noneB_unique : UniqueIds [noneB] :=
  uniqueIds_of (L := [noneN, noneB]) (by simp) (by simp [noneN, noneB, task1, TTree.requires])
    (by simp [noneN, noneB, task1, TTree.id])

theorem regular_of {tasks L : List (Task 1)} (h1 : ∀ t ∈ tasks, t ∈ L)
    (h2 : ∀ t ∈ L, ∀ u ∈ t.requires, u ∈ L) (h3 : ∀ t ∈ L, t.info.Regular) :
    ∀ t, Required tasks t → t.info.Regular := fun t ht => h3 t (required_mem h1 h2 ht)

theorem symA_regular : symA.info.Regular := by constructor <;> decide
theorem symB_regular : symB.info.Regular := by constructor <;> decide
theorem asymA_regular : asymA.info.Regular := by constructor <;> decide
theorem asymB_regular : asymB.info.Regular := by constructor <;> decide
theorem overA_regular : overA.info.Regular := by constructor <;> decide
theorem overB_regular : overB.info.Regular := by constructor <;> decide
theorem upA_regular : upA.info.Regular := by constructor <;> decide
theorem upA'_regular : upA'.info.Regular := by constructor <;> decide
theorem upB_regular : upB.info.Regular := by constructor <;> decide
theorem smallA_regular : smallA.info.Regular := by constructor <;> decide
theorem bigB_regular : bigB.info.Regular := by constructor <;> decide
theorem noneC_regular : noneC.info.Regular := by constructor <;> decide
theorem noneN_regular : noneN.info.Regular := by constructor <;> decide
theorem noneB_regular : noneB.info.Regular := by constructor <;> decide

theorem sym_regular : ∀ t, Required [symB] t → t.info.Regular :=
  regular_of (L := [symA, symB]) (by simp) (by simp [symA, symB, task1, TTree.requires])
    (by simp [symA_regular, symB_regular])
theorem asym_regular : ∀ t, Required [asymB] t → t.info.Regular :=
  regular_of (L := [asymA, asymB]) (by simp) (by simp [asymA, asymB, task1, TTree.requires])
    (by simp [asymA_regular, asymB_regular])
theorem over_regular : ∀ t, Required [overB] t → t.info.Regular :=
  regular_of (L := [overA, overB]) (by simp) (by simp [overA, overB, task1, TTree.requires])
    (by simp [overA_regular, overB_regular])
theorem up_regular : ∀ t, Required [upB] t → t.info.Regular :=
  regular_of (L := [upA, upA', upB]) (by simp) (by simp [upA, upA', upB, task1, TTree.requires])
    (by simp [upA_regular, upA'_regular, upB_regular])
theorem big_regular : ∀ t, Required [bigB] t → t.info.Regular :=
  regular_of (L := [smallA, bigB]) (by simp) (by simp [smallA, bigB, task1, TTree.requires])
    (by simp [smallA_regular, bigB_regular])
theorem noneC_all_regular : ∀ t, Required [noneC] t → t.info.Regular :=
  regular_of (L := [noneC]) (by simp) (by simp [noneC, task1, TTree.requires])
    (by simp [noneC_regular])
theorem noneB_all_regular : ∀ t, Required [noneB] t → t.info.Regular :=
  regular_of (L := [noneN, noneB]) (by simp) (by simp [noneN, noneB, task1, TTree.requires])
    (by simp [noneN_regular, noneB_regular])

theorem sym_init : Pipeline.init [symB] = .ok (pipe [symB]) := rfl
theorem asym_init : Pipeline.init [asymB] = .ok (pipe [asymB]) := rfl
theorem over_init : Pipeline.init [overB] = .ok (pipe [overB]) := rfl
theorem up_init : Pipeline.init [upB] = .ok (pipe [upB]) := rfl
theorem big_init : Pipeline.init [bigB] = .ok (pipe [bigB]) := rfl
theorem noneC_init : Pipeline.init [noneC] = .ok (pipe [noneC]) := rfl
theorem noneB_init : Pipeline.init [noneB] = .ok (pipe [noneB]) := rfl

/-- In a pipeline of two tasks `0` and `1`, where `1` requires `0`. -/
theorem pair_graphs {B : Task 1} {g0 g1 : BGraph 1} {p : Pipeline 1}
    (hp : Pipeline.init [B] = .ok p) (hids : p.tg.ids = [1, 0]) (e0 : p.graphs 0 = some g0)
    (e1 : p.graphs 1 = some g1) (hid : UniqueIds [B]) {x : Nat} {g : BGraph 1}
    (h : p.graphs x = some g) : (x = 0 ∧ g = g0) ∨ (x = 1 ∧ g = g1) := by
  have hx := (Pipeline.built_of_init hp hid).1.only x g h
  rw [hids] at hx
  simp only [List.mem_cons, List.not_mem_nil, or_false] at hx
  rcases hx with rfl | rfl
  · right; rw [e1] at h; cases h; exact ⟨rfl, rfl⟩
  · left; rw [e0] at h; cases h; exact ⟨rfl, rfl⟩

end Ex

end Verif
