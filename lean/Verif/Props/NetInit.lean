import Verif.Props.Net

/-! # C72: the constructor of the server when no port is found -/

namespace Verif

open Net

/-- C72: if the first call of `listen` fails, the constructor of the server raises `AttributeError`, whatever the host
and whatever would be found out about the address. -/
theorem C72_init_raises {tries : Int} (ht : 0 < tries) {listen : Nat → Option (List Nat)} (h : listen 0 = none)
    (host detect : Option String) (valid : String → Except NetErr Bool) :
    serverInit host tries listen detect valid = .error .attributeError := by
  unfold serverInit
  rw [C72_no_retry ht h]

/-- C72: a server that has been constructed listens: its port is the first one of the first call of `listen`. -/
theorem C72_init_listens {tries : Int} {listen : Nat → Option (List Nat)} {host detect : Option String}
    {valid : String → Except NetErr Bool} {a : String} {p : Nat}
    (h : serverInit host tries listen detect valid = .ok (a, p)) :
    0 < tries ∧ ∃ ps, listen 0 = some (p :: ps) := by
  have h0 : ∀ ports, getAddress host detect valid ports = .ok (a, p) → ∃ ps, ports = p :: ps := by
    intro ports e
    unfold getAddress at e
    cases ports with
    | nil => cases e
    | cons q qs =>
      refine ⟨qs, ?_⟩
      dsimp only at e
      split at e
      · cases e; rfl
      · split at e
        · cases e; rfl
        · split at e
          · split at e
            · cases e
            · cases e; rfl
            · cases e; rfl
          · cases e; rfl
  unfold serverInit at h
  by_cases ht : 0 < tries
  · refine ⟨ht, ?_⟩
    cases hl : listen 0 with
    | none => rw [C72_no_retry ht hl] at h; cases h
    | some ports =>
      rw [(C72_first_try_partial ht hl).1] at h
      obtain ⟨ps, rfl⟩ := h0 ports h
      exact ⟨ps, rfl⟩
  · have : bindPorts tries listen = .ok [] := by
      unfold bindPorts
      rw [show tries.toNat = 0 by omega]
      rfl
    rw [this] at h
    obtain ⟨ps, e⟩ := h0 [] h
    cases e

/-- The first port is taken, the second one is free; and a server that gets its first port. -/
example : serverInit (some "10.0.0.7") 1000 (fun i => if i = 0 then none else some [4242]) none (fun _ => .ok true)
    = .error .attributeError := C72_init_raises (by decide) rfl _ _ _
example : serverInit (some "10.0.0.7") 1000 (fun _ => some [4242, 4243]) none (fun _ => .ok true)
    = .ok ("10.0.0.7", 4242) := C73_host (by decide) rfl _ _ _

end Verif
