import Verif.Model.LogHandlers

/-! # C101, C102, C103: logging handlers -/

namespace Verif

open LogHandler

namespace Spec

/-- The stream of the handler is a terminal. -/
def Tty (b : LogBase) : Prop := b.stream = some (some true)

instance (b : LogBase) : Decidable (Tty b) := inferInstanceAs (Decidable (b.stream = some (some true)))

/-- The handler after `k` monitors: `k` wrappers around it. -/
def nested (b : LogBase) : Nat → LogHandler
  | 0 => .base b
  | k + 1 => .wrap (nested b k)

/-- What logging a record is to write: each handler with a low enough level whose filter accepts the record emits it,
in the order of the handlers. -/
def written (r : LogRecord) (bs : List LogBase) : List LogWrite :=
  bs.flatMap (fun b => if b.level ≤ r.level ∧ b.filter r = true then (b.emits r).map (⟨b.id, ·⟩) else [])

/-- `emit` of `logging.StreamHandler` with the default terminator, for a record whose message can be formatted. -/
def Formats (r : LogRecord) (b : LogBase) : Prop := ∃ s, b.format r = .ok s ∧ b.emits r = [s ++ "\n"]

end Spec

open Spec

private theorem reach_nested (b : LogBase) (limit : Nat) : ∀ k,
    reach limit (nested b k) = if k ≤ limit then .ok b else .error .runtimeError := by
  intro k
  induction k generalizing limit with
  | zero => simp [nested, reach]
  | succ k ih =>
    cases limit with
    | zero => simp [nested, reach]
    | succ l =>
      simp only [nested, reach]
      rw [ih l]
      simp

/-- The handlers after `k` monitors. -/
private def after (k : Nat) (bs : List LogBase) : List LogHandler :=
  bs.map (fun b => nested b (if Tty b then k else 0))

private theorem isTty_nested (b : LogBase) (limit k : Nat) :
    isTty limit (nested b (if Tty b then k else 0)) =
      if k ≤ limit ∨ ¬ Tty b then .ok (decide (Tty b)) else .error .runtimeError := by
  have key : ∀ b' : LogBase, (match b'.stream with
      | none => Except.ok false
      | some none => .ok false
      | some (some tty) => .ok tty) = (.ok (decide (Tty b')) : Except PyErr Bool) := by
    intro b'
    obtain ⟨i, l, st, f, fo, em⟩ := b'
    rcases st with _ | _ | _ | _ <;> rfl
  unfold isTty
  rw [reach_nested]
  by_cases ht : Tty b
  · by_cases hk : k ≤ limit
    · rw [if_pos (by rw [if_pos ht]; exact hk), if_pos (Or.inl hk)]
      exact key b
    · rw [if_neg (by rw [if_pos ht]; exact hk), if_neg (by simp [ht, hk])]
  · rw [if_pos (by rw [if_neg ht]; omega), if_pos (Or.inr ht)]
    exact key b

private theorem wrapAll_after (limit k : Nat) (bs : List LogBase) (h : k ≤ limit ∨ ∀ b ∈ bs, ¬ Tty b) :
    wrapAll limit (after k bs) = (after (k + 1) bs, none) := by
  induction bs with
  | nil => rfl
  | cons b bs ih =>
    have ih := ih (h.imp id (fun h b hb => h b (List.mem_cons_of_mem _ hb)))
    unfold after at ih ⊢
    simp only [List.map_cons, wrapAll]
    rw [isTty_nested, if_pos (h.imp id (fun h => h b List.mem_cons_self)), ih]
    by_cases ht : Tty b <;> simp [ht, nested]

private theorem wrapAll_fails (limit k : Nat) (bs : List LogBase) (hk : limit < k) (h : ∃ b ∈ bs, Tty b) :
    (wrapAll limit (after k bs)).2 = some .runtimeError := by
  induction bs with
  | nil => obtain ⟨b, hb, _⟩ := h; cases hb
  | cons b bs ih =>
    unfold after at ih ⊢
    simp only [List.map_cons, wrapAll]
    rw [isTty_nested]
    by_cases ht : Tty b
    · rw [if_neg (by simp [ht]; omega)]
    · rw [if_pos (Or.inr ht)]
      apply ih
      obtain ⟨b', hb', ht'⟩ := h
      rcases List.mem_cons.1 hb' with rfl | hb'
      · exact absurd ht' ht
      · exact ⟨b', hb', ht'⟩

private theorem monitors_after (limit : Nat) (bs : List LogBase) : ∀ k, (k ≤ limit + 1 ∨ ∀ b ∈ bs, ¬ Tty b) →
    monitors limit k (bs.map .base) = (after k bs, none)
  | 0, _ => by
    unfold monitors after
    simp only [Prod.mk.injEq, and_true]
    apply List.map_congr_left
    intro b _
    by_cases ht : Tty b <;> simp [ht, nested]
  | k + 1, h => by
    unfold monitors
    rw [monitors_after limit bs k (h.imp (by omega) id)]
    exact wrapAll_after limit k bs (h.imp (by omega) id)

/-! ### C101: log messages -/

private theorem handle_nested {limit k : Nat} {r : LogRecord} {b : LogBase} (hk : k ≤ limit)
    (hf : Tty b → Formats r b) :
    handle limit r (nested b (if Tty b then k else 0)) =
      (if b.filter r = true then (b.emits r).map (⟨b.id, ·⟩) else [], none) := by
  by_cases ht : Tty b
  · rw [if_pos ht]
    obtain ⟨s, h1, h2⟩ := hf ht
    cases k with
    | zero =>
      simp only [nested, handle]
      split <;> rfl
    | succ k =>
      have e1 := reach_nested b limit (k + 1)
      rw [if_pos hk] at e1
      have e2 := reach_nested b limit k
      rw [if_pos (by omega)] at e2
      simp only [nested] at e1
      simp only [nested, handle, e1, e2, h1, h2]
      split <;> rfl
  · rw [if_neg ht]
    simp only [nested, handle]
    split <;> rfl

/-- C101, partial.  The full claim has no hypotheses and is false (`C101_false_format`, `C102_false`): whatever
monitors were made before, a record is written exactly once by every handler that wants it, in the same order and with
the same text as without monitors, and the call does not raise, if its message can be formatted, handlers on terminals
are `StreamHandler`s with the default terminator, and there were not more monitors than the recursion limit. -/
theorem C101_written_partial (bs : List LogBase) (r : LogRecord) (limit k : Nat) (hk : k ≤ limit)
    (hf : ∀ b ∈ bs, Tty b → Formats r b) :
    callHandlers limit r (monitors limit k (bs.map .base)).1 = (written r bs, none) := by
  rw [monitors_after limit bs k (Or.inl (by omega))]
  induction bs with
  | nil => rfl
  | cons b bs ih =>
    have ih := ih (fun b hb => hf b (List.mem_cons_of_mem _ hb))
    unfold after written at ih ⊢
    simp only [List.map_cons, callHandlers, List.flatMap_cons]
    rw [reach_nested, if_pos (by split <;> omega), handle_nested hk (hf b List.mem_cons_self)]
    simp only
    rw [ih]
    by_cases hl : b.level ≤ r.level <;> simp [hl]

/-- Without monitors nothing is assumed: that is what `logging` does. -/
theorem C101_without (bs : List LogBase) (r : LogRecord) (limit : Nat) :
    callHandlers limit r (bs.map .base) = (written r bs, none) := by
  induction bs with
  | nil => rfl
  | cons b bs ih =>
    unfold written at ih ⊢
    simp only [List.map_cons, callHandlers, reach, handle, List.flatMap_cons]
    by_cases hl : b.level ≤ r.level
    · by_cases hf : b.filter r = true <;> simp [hl, hf, ih]
    · simp [hl, ih]

/-- C101: handlers that do not write to a terminal are left alone by any number of monitors. -/
theorem C101_other_handlers (bs : List LogBase) (limit k : Nat) (h : ∀ b ∈ bs, ¬ Tty b) :
    monitors limit k (bs.map .base) = (bs.map .base, none) := by
  rw [monitors_after limit bs k (Or.inr h)]
  unfold after
  simp only [Prod.mk.injEq, and_true]
  apply List.map_congr_left
  intro b hb
  rw [if_neg (h b hb)]
  rfl

/-- C101 is false: `logging` catches the exception if the message of a record cannot be formatted, and the other
handlers get the record; after a monitor was made, the call of the logger raises, and they do not.  Whatever the
handlers are, if the first one that wants the record is on a terminal and cannot format it. -/
theorem C101_false_format (b : LogBase) (bs : List LogBase) (r : LogRecord) (limit k : Nat) (hk : k < limit)
    (ht : Tty b) (hl : b.level ≤ r.level) (hfi : b.filter r = true) {e : PyErr} (hfo : b.format r = .error e) :
    callHandlers limit r (monitors limit (k + 1) ((b :: bs).map .base)).1 = ([], some e) ∧
    (callHandlers limit r ((b :: bs).map .base)).2 = none ∧
    written r bs <:+ (callHandlers limit r ((b :: bs).map .base)).1 := by
  refine ⟨?_, by rw [C101_without], ?_⟩
  · rw [monitors_after limit (b :: bs) (k + 1) (Or.inl (by omega))]
    unfold after
    have e1 := reach_nested b limit (k + 1)
    rw [if_pos (by omega)] at e1
    have e2 := reach_nested b limit k
    rw [if_pos (by omega)] at e2
    simp only [nested] at e1
    simp only [List.map_cons, if_pos ht, nested, callHandlers, e1, handle, hl, hfi, e2, hfo, if_true]
  · rw [C101_without]
    unfold written
    rw [List.flatMap_cons]
    exact List.suffix_append _ _

/-! ### C102: any number of runs -/

/-- The claim: monitors can be made any number of times. -/
def C102_statement : Prop := ∀ (bs : List LogBase) (limit k : Nat), (monitors limit k (bs.map .base)).2 = none

/-- C102, exactly: `k` monitors can be made iff no handler is on a terminal or `k` is at most one more than the
recursion limit. -/
theorem C102_monitors_iff (bs : List LogBase) (limit k : Nat) :
    (monitors limit k (bs.map .base)).2 = none ↔ (∀ b ∈ bs, ¬ Tty b) ∨ k ≤ limit + 1 := by
  constructor
  · intro h
    by_contra hc
    push Not at hc
    obtain ⟨⟨b, hb, ht⟩, hk⟩ := hc
    have hbad : ∀ d, (monitors limit (limit + 2 + d) (bs.map .base)).2 = some .runtimeError := by
      intro d
      induction d with
      | zero =>
        change (match monitors limit (limit + 1) (bs.map .base) with
          | (hs', some e) => (hs', some e)
          | (hs', none) => wrapAll limit hs').2 = _
        rw [monitors_after limit bs (limit + 1) (Or.inl (by omega))]
        exact wrapAll_fails limit (limit + 1) bs (by omega) ⟨b, hb, ht⟩
      | succ d ih =>
        change (match monitors limit (limit + 2 + d) (bs.map .base) with
          | (hs', some e) => (hs', some e)
          | (hs', none) => wrapAll limit hs').2 = _
        rcases hm : monitors limit (limit + 2 + d) (bs.map .base) with ⟨hs, _ | e⟩
        · rw [hm] at ih; cases ih
        · rw [hm] at ih; exact ih
    have := hbad (k - (limit + 2))
    rw [show limit + 2 + (k - (limit + 2)) = k by omega, h] at this
    cases this
  · rintro (h | h)
    · rw [monitors_after limit bs k (Or.inr h)]
    · rw [monitors_after limit bs k (Or.inl h)]

/-- C102, partial.  The full claim is `C102_statement`, and is false (`C102_false`): as many monitors as the recursion
limit can be made, and without a handler on a terminal any number. -/
theorem C102_monitors_partial (bs : List LogBase) (limit k : Nat) (h : (∀ b ∈ bs, ¬ Tty b) ∨ k ≤ limit) :
    (monitors limit k (bs.map .base)).2 = none :=
  (C102_monitors_iff bs limit k).2 (h.imp id (by omega))

/-- C102: a handler on a terminal is wrapped once more by every monitor. -/
theorem C102_nested (b : LogBase) (ht : Tty b) (limit k : Nat) (hk : k ≤ limit + 1) :
    monitors limit k [.base b] = ([nested b k], none) := by
  have := monitors_after limit [b] k (Or.inl hk)
  unfold after at this
  simp only [List.map_cons, List.map_nil, if_pos ht] at this
  exact this

/-- C102 is false, whatever the recursion limit: with a handler on a terminal, some number of monitors cannot be made.
Before that, logging any record raises. -/
theorem C102_false (b : LogBase) (ht : Tty b) (limit : Nat) :
    (∃ k, (monitors limit k [.base b]).2 = some .runtimeError) ∧
    ∃ k, (monitors limit k [.base b]).2 = none ∧
      ∀ r, callHandlers limit r (monitors limit k [.base b]).1 = ([], some .runtimeError) := by
  constructor
  · refine ⟨limit + 2, ?_⟩
    change (match monitors limit (limit + 1) [.base b] with
      | (hs', some e) => (hs', some e)
      | (hs', none) => wrapAll limit hs').2 = _
    rw [C102_nested b ht limit (limit + 1) le_rfl]
    have := wrapAll_fails limit (limit + 1) [b] (by omega) ⟨b, List.mem_singleton_self b, ht⟩
    unfold after at this
    simp only [List.map_cons, List.map_nil, if_pos ht] at this
    exact this
  · refine ⟨limit + 1, ?_⟩
    rw [C102_nested b ht limit (limit + 1) le_rfl]
    refine ⟨rfl, fun r => ?_⟩
    unfold callHandlers
    rw [reach_nested, if_neg (by omega)]

theorem C102_statement_false : ¬ C102_statement := by
  intro h
  have := h [⟨0, 0, some (some true), fun _ => true, fun r => .ok r.msg, fun r => [r.msg ++ "\n"]⟩] 0 2
  rw [C102_monitors_iff] at this
  revert this
  simp [Tty]

/-! ### C103: removing handlers -/

/-- C103, partial.  The full claim is about all handlers and is false (`C103_false`): a handler that is not on a
terminal can be removed after any number of monitors; afterwards no record is written by it. -/
theorem C103_removed_partial (pre post : List LogBase) (b : LogBase) (hb : ¬ Tty b)
    (hid : ∀ b' ∈ pre, b'.id ≠ b.id) (hid' : ∀ b' ∈ post, b'.id ≠ b.id) (r : LogRecord) (limit k : Nat)
    (hk : k ≤ limit) (hf : ∀ b ∈ pre ++ post, Tty b → Formats r b) :
    callHandlers limit r (removeHandler b.id (monitors limit k ((pre ++ b :: post).map .base)).1) =
      (written r (pre ++ post), none) ∧ ∀ w ∈ written r (pre ++ post), w.handler ≠ b.id := by
  constructor
  · rw [← C101_written_partial (pre ++ post) r limit k hk hf,
      monitors_after limit (pre ++ b :: post) k (Or.inl (by omega)),
      monitors_after limit (pre ++ post) k (Or.inl (by omega))]
    congr 1
    clear hf
    induction pre with
    | nil =>
      unfold after
      simp [removeHandler, hb, nested]
    | cons a pre ih =>
      have ih := ih (fun b' hb' => hid b' (List.mem_cons_of_mem _ hb'))
      unfold after at ih ⊢
      simp only [List.cons_append, List.map_cons]
      have key : ∀ m hs, removeHandler b.id (nested a m :: hs) = nested a m :: removeHandler b.id hs := by
        intro m hs
        cases m with
        | zero =>
          simp only [nested, removeHandler]
          rw [if_neg (hid a List.mem_cons_self)]
        | succ m => rfl
      rw [key, ih]
  · intro w hw
    unfold written at hw
    obtain ⟨b', hb', hw⟩ := List.mem_flatMap.1 hw
    split_ifs at hw
    · obtain ⟨s, _, rfl⟩ := List.mem_map.1 hw
      exact (List.mem_append.1 hb').elim (hid b') (hid' b')
    · cases hw

/-- C103 is false: after a monitor was made, removing a handler on a terminal has no effect; it goes on writing every
record that it wants. -/
theorem C103_false (bs : List LogBase) (b : LogBase) (ht : Tty b) (hmem : b ∈ bs)
    (hid : ∀ b' ∈ bs, b'.id = b.id → b' = b) (r : LogRecord) (limit k : Nat) (hk : k + 1 ≤ limit)
    (hf : ∀ b ∈ bs, Tty b → Formats r b) (hl : b.level ≤ r.level) (hfi : b.filter r = true) :
    removeHandler b.id (monitors limit (k + 1) (bs.map .base)).1 = (monitors limit (k + 1) (bs.map .base)).1 ∧
    ∃ w ∈ (callHandlers limit r (removeHandler b.id (monitors limit (k + 1) (bs.map .base)).1)).1,
      w.handler = b.id := by
  have e : removeHandler b.id (monitors limit (k + 1) (bs.map .base)).1 =
      (monitors limit (k + 1) (bs.map .base)).1 := by
    rw [monitors_after limit bs (k + 1) (Or.inl (by omega))]
    clear hf hmem
    induction bs with
    | nil => rfl
    | cons a bs ih =>
      have ih := ih (fun b' hb' => hid b' (List.mem_cons_of_mem _ hb'))
      unfold after at ih ⊢
      simp only [List.map_cons]
      by_cases hta : Tty a
      · simp only [if_pos hta, nested, removeHandler]
        exact congrArg _ ih
      · simp only [if_neg hta, nested, removeHandler]
        rw [if_neg, ih]
        intro hc
        rw [hid a List.mem_cons_self hc] at hta
        exact hta ht
  refine ⟨e, ?_⟩
  rw [e, C101_written_partial bs r limit (k + 1) hk hf]
  obtain ⟨s, _, hs⟩ := hf b hmem ht
  refine ⟨⟨b.id, s ++ "\n"⟩, ?_, rfl⟩
  unfold written
  refine List.mem_flatMap.2 ⟨b, hmem, ?_⟩
  rw [if_pos ⟨hl, hfi⟩, hs]
  exact List.mem_singleton_self _

namespace Ex

/-- A `StreamHandler` for messages of level 10 and above that can format all messages but `"bad"`. -/
def streamHandler (id : Nat) (tty : Bool) : LogBase :=
  ⟨id, 10, some (some tty), fun _ => true, fun r => if r.msg = "bad" then .error .typeError else .ok r.msg,
    fun r => if r.msg = "bad" then [] else [r.msg ++ "\n"]⟩

end Ex

/-- A terminal and a file, three monitors. -/
example : (∀ b ∈ [Ex.streamHandler 0 true, Ex.streamHandler 1 false], Tty b → Formats ⟨20, "hello"⟩ b) ∧
    callHandlers 900 ⟨20, "hello"⟩ (monitors 900 3 ([Ex.streamHandler 0 true, Ex.streamHandler 1 false].map .base)).1 =
      ([⟨0, "hello\n"⟩, ⟨1, "hello\n"⟩], none) := by
  constructor
  · intro b hb _
    rcases List.mem_cons.1 hb with rfl | hb
    · exact ⟨"hello", rfl, rfl⟩
    · rw [List.mem_singleton.1 hb]
      exact ⟨"hello", rfl, rfl⟩
  · rfl

example : callHandlers 900 ⟨20, "bad"⟩ (monitors 900 1 ([Ex.streamHandler 0 true, Ex.streamHandler 1 false].map .base)).1 =
    ([], some .typeError) := rfl

example : Tty (Ex.streamHandler 0 true) ∧ ¬ Tty (Ex.streamHandler 1 false) := by
  constructor
  · rfl
  · intro h; cases h

end Verif
