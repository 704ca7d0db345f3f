import Verif.Model.Freezable

/-! # C51: frozen objects accept no new attributes -/

namespace Verif

open PyObj

variable {V : Type}

/-- The flag of the object is set. -/
def Spec.Frozen (P : PyVals V) (o : PyObj V) : Prop := ∃ v, o.get flag = some v ∧ P.truthy v = true

private theorem get_objSet (o : PyObj V) (k k' : String) (v : V) :
    (o.objSet k v).get k' = if k' = k then some v else o.get k' := by
  unfold PyObj.get objSet
  by_cases h : k' = k <;> simp [h]

private theorem has_objSet (o : PyObj V) (k k' : String) (v : V) :
    (o.objSet k v).has k' = (decide (k' = k) || o.has k') := by
  unfold PyObj.has
  rw [get_objSet]
  by_cases h : k' = k <;> simp [h]

/-- C51, freezing: `freeze` works on every object whether it is frozen or not, leaves all other
attributes as they are and the object is frozen then. -/
theorem C51_freeze (P : PyVals V) (o : PyObj V) (h : o.has flag = true) :
    ∃ o', o.freeze P = .ok o' ∧ Spec.Frozen P o' ∧ ∀ k, k ≠ flag → o'.get k = o.get k := by
  obtain ⟨v, hv⟩ := Option.isSome_iff_exists.1 h
  refine ⟨o.objSet flag P.true, ?_, ⟨P.true, ?_, P.truthy_true⟩, fun k hk => ?_⟩
  · simp [freeze, PyObj.set, hv, h]
  · rw [get_objSet, if_pos rfl]
  · rw [get_objSet, if_neg hk]

/-- C51, thawing: `thaw` works on every object, and afterwards every assignment succeeds. -/
theorem C51_thaw (P : PyVals V) (o : PyObj V) (h : o.has flag = true) :
    ∃ o', o.thaw P = .ok o' ∧ (∀ k, k ≠ flag → o'.get k = o.get k) ∧
      ∀ k v, ∃ o'', o'.set P k v = .ok o'' ∧ o''.get k = some v := by
  obtain ⟨v, hv⟩ := Option.isSome_iff_exists.1 h
  refine ⟨o.objSet flag P.false, ?_, fun k hk => ?_, fun k v => ⟨(o.objSet flag P.false).objSet k v, ?_, ?_⟩⟩
  · simp [thaw, PyObj.set, hv, h]
  · rw [get_objSet, if_neg hk]
  · simp [PyObj.set, get_objSet, P.truthy_false]
  · rw [get_objSet, if_pos rfl]

/-- C51, one assignment to a frozen object: existing attributes are assigned, others raise
`TypeError`. -/
theorem C51_assign (P : PyVals V) (o : PyObj V) (hf : Spec.Frozen P o) (k : String) (v : V) :
    (o.has k = true → ∃ o', o.set P k v = .ok o' ∧ o'.get k = some v ∧
      ∀ k', k' ≠ k → o'.get k' = o.get k') ∧
    (o.has k = false → o.set P k v = .error .typeError) := by
  obtain ⟨f, hf, ht⟩ := hf
  constructor
  · intro hk
    refine ⟨o.objSet k v, by simp [PyObj.set, hf, hk], by rw [get_objSet, if_pos rfl], fun k' h => ?_⟩
    rw [get_objSet, if_neg h]
  · intro hk
    simp [PyObj.set, hf, hk, ht]

/-- C51 for any sequence of assignments to a frozen object, as long as the private flag itself is not
assigned: no attribute is added and none disappears. -/
theorem C51_frozen_partial (P : PyVals V) (o : PyObj V) (hf : Spec.Frozen P o) (as : List (String × V))
    (has : ∀ a ∈ as, a.1 ≠ flag) :
    Spec.Frozen P (o.assign P as) ∧ ∀ k, (o.assign P as).has k = o.has k := by
  induction as generalizing o with
  | nil => exact ⟨hf, fun _ => rfl⟩
  | cons a as ih =>
    obtain ⟨k, v⟩ := a
    have hk : k ≠ flag := has (k, v) List.mem_cons_self
    have has' := fun a ha => has a (List.mem_cons_of_mem _ ha)
    obtain ⟨h1, h2⟩ := C51_assign P o hf k v
    unfold assign
    cases hb : o.has k with
    | false => rw [h2 hb]; exact ih o hf has'
    | true =>
      have e : o.set P k v = .ok (o.objSet k v) := by
        obtain ⟨f, hf, ht⟩ := hf
        simp [PyObj.set, hf, hb]
      rw [e]
      have hf' : Spec.Frozen P (o.objSet k v) := by
        obtain ⟨f, hf, ht⟩ := hf
        exact ⟨f, by rw [get_objSet, if_neg hk.symm]; exact hf, ht⟩
      obtain ⟨i1, i2⟩ := ih (o.objSet k v) hf' has'
      refine ⟨i1, fun k' => ?_⟩
      rw [i2, has_objSet]
      by_cases hkk : k' = k
      · subst hkk; simp [hb]
      · simp [hkk]

/-- The attributes of a block. -/
def Spec.blockAttrs : List String :=
  ["read_roi", "write_roi", "requested_write_roi", "task_id", "block_id", "status",
    "started_processing", "stopped_processing", flag]

/-- C51 for blocks: `Block.__init__` does not raise, the block is frozen, and its attributes are the
eight it was given and those of its class. -/
theorem C51_block (P : PyVals V) (methods : String → Option V) (v : BlockVals V) :
    ∃ o, (blockNew P methods).blockInit P v = .ok o ∧ Spec.Frozen P o ∧
      (∀ k, o.has k = true ↔ k ∈ Spec.blockAttrs ∨ (methods k).isSome = true) ∧
      o.get "status" = some v.created ∧ o.get "write_roi" = some v.writeRoi := by
  have key : ∀ (o : PyObj V), o.get flag = some P.false → ∀ k w, o.set P k w = .ok (o.objSet k w) := by
    intro o h k w
    simp [PyObj.set, h, P.truthy_false]
  have key2 : ∀ (o : PyObj V), o.get flag = some P.false → ∀ k, k ≠ flag → ∀ w,
      (o.objSet k w).get flag = some P.false := by
    intro o h k hk w
    rw [get_objSet, if_neg (Ne.symm hk), h]
  have k0 : (blockNew P methods).get flag = some P.false := by simp [PyObj.get, blockNew]
  have k1 := key2 _ k0 "read_roi" (by decide) v.readRoi
  have k2 := key2 _ k1 "write_roi" (by decide) v.writeRoi
  have k3 := key2 _ k2 "requested_write_roi" (by decide) v.writeRoi
  have k4 := key2 _ k3 "task_id" (by decide) v.taskId
  have k5 := key2 _ k4 "block_id" (by decide) v.blockId
  have k6 := key2 _ k5 "status" (by decide) v.created
  have k7 := key2 _ k6 "started_processing" (by decide) v.pyNone
  have k8 := key2 _ k7 "stopped_processing" (by decide) v.pyNone
  have hinit : (blockNew P methods).blockInit P v = .ok (((((((((blockNew P methods).objSet "read_roi"
      v.readRoi).objSet "write_roi" v.writeRoi).objSet "requested_write_roi" v.writeRoi).objSet "task_id"
      v.taskId).objSet "block_id" v.blockId).objSet "status" v.created).objSet "started_processing"
      v.pyNone).objSet "stopped_processing" v.pyNone |>.objSet flag P.true) := by
    simp only [blockInit, key _ k0, key _ k1, key _ k2, key _ k3, key _ k4, key _ k5, key _ k6, key _ k7,
      freeze, key _ k8]
  refine ⟨_, hinit, ⟨P.true, by rw [get_objSet, if_pos rfl], P.truthy_true⟩, fun k => ?_, ?_, ?_⟩
  · simp only [has_objSet, Bool.or_eq_true, decide_eq_true_eq, Spec.blockAttrs, List.mem_cons,
      List.not_mem_nil, or_false]
    have : (blockNew P methods).has k = true ↔ k = flag ∨ (methods k).isSome = true := by
      unfold PyObj.has PyObj.get blockNew
      dsimp only
      by_cases h : k = flag <;> simp [h]
    rw [this]
    tauto
  · simp [get_objSet, flag]
  · simp [get_objSet, flag]

/-- All assignments daisy makes to blocks (`client.py` 85-100, `scheduler.py` 96, `server.py` 232 and 267,
`serial_server.py` 50, `block_bookkeeper.py` 38-39, `dependency_graph.py` 490-491) succeed, whatever was
assigned before. -/
theorem C51_daisy_assignments (P : PyVals V) (methods : String → Option V) (v : BlockVals V) (o : PyObj V)
    (ho : (blockNew P methods).blockInit P v = .ok o) (as : List (String × V)) (has : ∀ a ∈ as, a.1 ≠ flag)
    (k : String)
    (hk : k ∈ ["status", "started_processing", "stopped_processing", "read_roi", "write_roi"]) (w : V) :
    ∃ o', (o.assign P as).set P k w = .ok o' ∧ o'.get k = some w := by
  obtain ⟨o1, e, hf, hattr, _⟩ := C51_block P methods v
  rw [ho] at e
  cases e
  obtain ⟨hf', hhas⟩ := C51_frozen_partial P o hf as has
  have : o.has k = true := (hattr k).2 (Or.inl (by
    revert k; decide))
  obtain ⟨o', h1, h2, _⟩ := (C51_assign P _ hf' k w).1 (by rw [hhas, this])
  exact ⟨o', h1, h2⟩

/-- Values for the examples: booleans. -/
def boolVals : PyVals Bool := ⟨true, false, id, rfl, rfl⟩

/-- A block with attributes of boolean type. -/
def exBlock : PyObj Bool :=
  ⟨fun k => if k = flag then some false else if k = "copy" then some true else none,
    fun k => if k ∈ Spec.blockAttrs then some true else none⟩

example : Spec.Frozen boolVals exBlock ∧ exBlock.has "copy" = true ∧ exBlock.has "state" = false ∧
    exBlock.has flag = true := by
  refine ⟨⟨true, by decide, rfl⟩, by decide, by decide, by decide⟩

example : ∃ o, (blockNew boolVals (fun k => if k = "copy" then some true else none)).blockInit boolVals
    ⟨true, true, true, true, false, false⟩ = .ok o ∧ o.has "status" = true ∧ o.has "state" = false := by
  obtain ⟨o, h1, _, h3, _⟩ := C51_block boolVals (fun k => if k = "copy" then some true else none)
    ⟨true, true, true, true, false, false⟩
  refine ⟨o, h1, (h3 _).2 (by decide), ?_⟩
  rw [← Bool.not_eq_true, h3]
  decide

/-- C51 is false for assignments of the private flag: it is an attribute as any other, and assigning
it lifts the restriction. -/
theorem C51_false : ∃ (o : PyObj Bool) (as : List (String × Bool)), Spec.Frozen boolVals o ∧
    o.has "state" = false ∧ (o.assign boolVals as).has "state" = true :=
  ⟨exBlock, [(flag, false), ("state", true)], ⟨true, by decide, rfl⟩, by decide, by decide⟩

end Verif
