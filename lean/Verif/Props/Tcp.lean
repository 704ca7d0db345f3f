import Verif.Proofs.Tcp

/-! # C47, C57, C58: messages get through -/

namespace Verif

open Tcp

variable {M S : Type}

namespace Spec

/-- The message can be sent: it can be pickled, to less than 4 GiB. -/
def Sendable (P : Pickle M) (m : M) : Prop := ∃ data, P.dumps m = .ok data ∧ data.length < 2 ^ 32

/-- What is pickled can be loaded again, and gives the same message. -/
def Loadable (P : Pickle M) (m : M) : Prop := ∀ data, P.dumps m = .ok data → P.loads data = .ok m

end Spec

open Spec

private theorem frame_not_sendable {P : Pickle M} {m : M} (h : ¬ Sendable P m) : frame P m = [] := by
  unfold frame
  cases hd : P.dumps m with
  | error e => rfl
  | ok data =>
    dsimp only
    rw [packI_error]
    by_contra hl
    exact h ⟨data, hd, by omega⟩

open Classical in
private theorem frames_filter (P : Pickle M) (ms : List M) :
    ((ms.filter (Sendable P)).map (frame P)).flatten = (ms.map (frame P)).flatten := by
  induction ms with
  | nil => rfl
  | cons m ms ih =>
    by_cases h : Sendable P m
    · rw [List.filter_cons_of_pos (by simpa using h), List.map_cons, List.map_cons, List.flatten_cons,
        List.flatten_cons, ih]
    · rw [List.filter_cons_of_neg (by simpa using h), List.map_cons, List.flatten_cons, ih,
        frame_not_sendable h, List.nil_append]

/-- C47: the receiver gets the messages in the order they were sent, however the bytes are cut into chunks.
Messages that cannot be sent leave no trace on the wire (see `C47_rejected`).  `bye` recognises the message
that ends the connection. -/
theorem C47_lossless (P : Pickle M) (bye : M → Bool) (ms : List M) (hb : ∀ m ∈ ms, bye m = false)
    (hl : ∀ m ∈ ms, Loadable P m) (chunks : List Bytes)
    (hc : chunks.flatten = (sendAll P ⟨false, []⟩ ms).wire) :
    (chunks.foldl (Rx.feed P bye) Rx.new).got = ms.filter (fun m => @decide (Sendable P m) (Classical.propDecidable _)) ∧
    (chunks.foldl (Rx.feed P bye) Rx.new).buf = [] ∧
    (chunks.foldl (Rx.feed P bye) Rx.new).ended = none := by
  rw [sendAll_wire P ms _ rfl, ← frames_filter] at hc
  rw [feedAll P bye chunks Rx.new (run_idle rfl rfl (by simp [Rx.new])), hc]
  unfold Rx.feed
  rw [run_frames (rest := []) (ms := ms.filter (fun m => @decide (Sendable P m) (Classical.propDecidable _)))
    rfl rfl _ (by simp [Rx.new]), run_idle rfl rfl (by simp)]
  · simp [Rx.new]
  · intro m hm
    rw [List.mem_filter] at hm
    obtain ⟨hm, hs⟩ := hm
    obtain ⟨data, h1, h2⟩ := @of_decide_eq_true _ (Classical.propDecidable _) hs
    exact ⟨data, h1, h2, hl m hm data h1, hb m hm⟩

/-- C47 if all messages can be sent: the same sequence comes out. -/
theorem C47_same_sequence (P : Pickle M) (bye : M → Bool) (ms : List M) (hb : ∀ m ∈ ms, bye m = false)
    (hs : ∀ m ∈ ms, Sendable P m) (hl : ∀ m ∈ ms, Loadable P m) (chunks : List Bytes)
    (hc : chunks.flatten = (sendAll P ⟨false, []⟩ ms).wire) :
    (chunks.foldl (Rx.feed P bye) Rx.new).got = ms := by
  rw [(C47_lossless P bye ms hb hl chunks hc).1, List.filter_eq_self.2]
  intro m hm
  exact @decide_eq_true _ (Classical.propDecidable _) (hs m hm)

/-- C47 while bytes are still under way: what has been received is the beginning of what was sent. -/
theorem C47_prefix (P : Pickle M) (bye : M → Bool) (ms : List M) (hb : ∀ m ∈ ms, bye m = false)
    (hs : ∀ m ∈ ms, Sendable P m) (hl : ∀ m ∈ ms, Loadable P m) (chunks : List Bytes)
    (hc : chunks.flatten <+: (sendAll P ⟨false, []⟩ ms).wire) :
    (chunks.foldl (Rx.feed P bye) Rx.new).got <+: ms := by
  obtain ⟨rest, hr⟩ := hc
  have h := C47_same_sequence P bye ms hb hs hl (chunks ++ [rest]) (by simpa using hr)
  rw [List.foldl_append, List.foldl_cons, List.foldl_nil] at h
  obtain ⟨l, hl⟩ := run_got_prefix P bye
    { chunks.foldl (Rx.feed P bye) Rx.new with buf := (chunks.foldl (Rx.feed P bye) Rx.new).buf ++ rest }
  unfold Rx.feed at h hl ⊢
  rw [h] at hl
  exact ⟨l, hl.symm⟩

/-- C47 while bytes are still under way: every message of which all bytes have arrived has been received. -/
theorem C47_complete (P : Pickle M) (bye : M → Bool) (ms : List M) (hb : ∀ m ∈ ms, bye m = false)
    (hs : ∀ m ∈ ms, Sendable P m) (hl : ∀ m ∈ ms, Loadable P m) (chunks : List Bytes)
    (hc : (sendAll P ⟨false, []⟩ ms).wire <+: chunks.flatten) :
    ms <+: (chunks.foldl (Rx.feed P bye) Rx.new).got := by
  obtain ⟨rest, hr⟩ := hc
  have h := C47_same_sequence P bye ms hb hs hl [(sendAll P ⟨false, []⟩ ms).wire] (by simp)
  rw [List.foldl_cons, List.foldl_nil] at h
  rw [feedAll P bye chunks Rx.new (run_idle rfl rfl (by simp [Rx.new])), ← hr, ← feed_append]
  obtain ⟨l, hl⟩ := run_got_prefix P bye
    { Rx.feed P bye Rx.new (sendAll P ⟨false, []⟩ ms).wire with
      buf := (Rx.feed P bye Rx.new (sendAll P ⟨false, []⟩ ms).wire).buf ++ rest }
  unfold Rx.feed at h hl ⊢
  rw [h] at hl
  exact ⟨l, hl.symm⟩

/-- C47, the loop does not end by itself: while what arrives are bytes of messages, it waits for more. -/
theorem C47_waits (P : Pickle M) (bye : M → Bool) (ms : List M) (hb : ∀ m ∈ ms, bye m = false)
    (hl : ∀ m ∈ ms, Loadable P m) (chunks : List Bytes)
    (hc : chunks.flatten <+: (sendAll P ⟨false, []⟩ ms).wire) :
    (chunks.foldl (Rx.feed P bye) Rx.new).ended = none := by
  obtain ⟨rest, hr⟩ := hc
  have h := (C47_lossless P bye ms hb hl (chunks ++ [rest]) (by simpa using hr)).2.2
  rw [List.foldl_append, List.foldl_cons, List.foldl_nil] at h
  cases he : (chunks.foldl (Rx.feed P bye) Rx.new).ended with
  | none => rfl
  | some e =>
    unfold Rx.feed at h he
    rw [run_ended (e := e) (by exact he)] at h
    rw [← h]
    exact he.symm

/-- C47, the end of a connection is noticed: if the connection breaks after some of the bytes have arrived,
perhaps in the middle of a message, then the receive loop ends with `StreamClosedError`, and it has received
exactly the messages that have arrived completely. -/
theorem C47_end (P : Pickle M) (bye : M → Bool) (ms : List M) (hb : ∀ m ∈ ms, bye m = false)
    (hs : ∀ m ∈ ms, Sendable P m) (hl : ∀ m ∈ ms, Loadable P m) (chunks : List Bytes)
    (hc : chunks.flatten <+: (sendAll P ⟨false, []⟩ ms).wire) :
    let rx := (chunks.foldl (Rx.feed P bye) Rx.new).close
    rx.ended = some .closed ∧ rx.got <+: ms ∧
      ∀ ms', ms' <+: ms → (sendAll P ⟨false, []⟩ ms').wire <+: chunks.flatten → ms' <+: rx.got := by
  intro rx
  have h1 := C47_waits P bye ms hb hl chunks hc
  have h2 : rx = { chunks.foldl (Rx.feed P bye) Rx.new with ended := some .closed } := by
    show Rx.close _ = _
    unfold Rx.close
    rw [if_neg (by simp [h1])]
  rw [h2]
  refine ⟨rfl, C47_prefix P bye ms hb hs hl chunks hc, ?_⟩
  intro ms' hm hw
  exact C47_complete P bye ms' (fun m h => hb m (hm.subset h)) (fun m h => hs m (hm.subset h))
    (fun m h => hl m (hm.subset h)) chunks hw

/-- C47, segmentation: any two ways to cut the same bytes lead to the same state of the receiver, whatever
the bytes are. -/
theorem C47_segmentation (P : Pickle M) (bye : M → Bool) (cs cs' : List Bytes) (h : cs.flatten = cs'.flatten) :
    cs.foldl (Rx.feed P bye) Rx.new = cs'.foldl (Rx.feed P bye) Rx.new := by
  rw [feedAll P bye cs Rx.new (run_idle rfl rfl (by simp [Rx.new])),
    feedAll P bye cs' Rx.new (run_idle rfl rfl (by simp [Rx.new])), h]

/-- C47, large messages: they are refused with `struct.error`, and nothing is written. -/
theorem C47_rejected (P : Pickle M) (tx : Tx) (m : M) (lost : Bool) (data : Bytes)
    (hd : P.dumps m = .ok data) (hs : 2 ^ 32 ≤ data.length) :
    send P tx m lost = (tx, some .structError) := by
  unfold send
  rw [hd]
  dsimp only
  rw [packI_error hs]

/-- Pickling for the examples: messages are lists of bytes, except that loading `[7]` raises (like an
exception class whose `__init__` takes more arguments than it passes on). -/
def toyPickle : Pickle Bytes where
  dumps := fun m => if m = [9] then .error .typeError else .ok m
  loads := fun b => if b = [7] then .error .typeError else .ok b

example : (∀ m ∈ ([[1, 2], [], [3]] : List Bytes), Sendable toyPickle m ∧ Loadable toyPickle m) ∧
    ([[2, 0], [0, 0, 1], [2, 0, 0, 0, 0, 1], [], [0, 0, 0, 3]] : List Bytes).flatten =
      (sendAll toyPickle ⟨false, []⟩ [[1, 2], [], [3]]).wire := by
  refine ⟨?_, by decide⟩
  intro m hm
  simp only [List.mem_cons, List.not_mem_nil, or_false] at hm
  rcases hm with rfl | rfl | rfl <;>
    exact ⟨⟨_, rfl, by decide⟩, fun data h => by cases h; rfl⟩

/-- The connection breaks in the middle of the second of these messages. -/
example : ([[2, 0], [0, 0, 1], [2, 0, 0]] : List Bytes).flatten <+:
      (sendAll toyPickle ⟨false, []⟩ [[1, 2], [], [3]]).wire ∧
    (sendAll toyPickle ⟨false, []⟩ [[1, 2]]).wire <+: ([[2, 0], [0, 0, 1], [2, 0, 0]] : List Bytes).flatten ∧
    (([[2, 0], [0, 0, 1], [2, 0, 0]] : List Bytes).foldl (Rx.feed toyPickle (fun _ => false)) Rx.new).close.got =
      [[1, 2]] := by
  refine ⟨by decide, by decide, by decide +kernel⟩

/-- A message of exactly `2 ^ 32` bytes. -/
example : toyPickle.dumps (List.replicate (2 ^ 32) 0) = .ok (List.replicate (2 ^ 32) 0) ∧
    2 ^ 32 ≤ (List.replicate (2 ^ 32) (0 : Fin 256)).length := by
  have h : ¬ (List.replicate (2 ^ 32) (0 : Fin 256) = [9]) := by
    intro h
    have := congrArg List.length h
    rw [List.length_replicate] at this
    exact absurd this (by decide)
  exact ⟨by unfold toyPickle; dsimp only; rw [if_neg h], by rw [List.length_replicate]⟩

/-! ## The message queue of the server -/

/-- A `TCPServer` with its clients, and what it has handed to the server so far. -/
structure Spec.TcpState (M S : Type) where
  rx : S → Rx M
  queues : Queues M S
  /-- messages the main loop has got -/
  handed : List (M × S)
  /-- exceptions that have been raised in the main loop -/
  raised : List PyErr

/-- What can happen. -/
inductive Spec.TcpEvent (S : Type) where
  | bytes (s : S) (chunk : Bytes)
  | close (s : S)
  /-- the main loop asks for a message -/
  | get

variable [DecidableEq S]

/-- One event. -/
def Spec.TcpState.step (P : Pickle M) (bye : M → Bool) (st : TcpState M S) : TcpEvent S → TcpState M S
  | .bytes s c =>
    { st with
      rx := fun s' => if s' = s then (st.rx s).feed P bye c else st.rx s'
      queues := st.queues.stream s (st.rx s) ((st.rx s).feed P bye c) }
  | .close s =>
    { st with
      rx := fun s' => if s' = s then (st.rx s).close else st.rx s'
      queues := st.queues.stream s (st.rx s) (st.rx s).close }
  | .get =>
    match st.queues.clientMessage with
    | (.ok (some m), q) => { st with queues := q, handed := st.handed ++ [m] }
    | (.ok none, q) => { st with queues := q }
    | (.error e, q) => { st with queues := q, raised := st.raised ++ [e] }

/-- The server has just been started. -/
def Spec.TcpState.init : TcpState M S := ⟨fun _ => Rx.new, ⟨[], []⟩, [], []⟩

/-- The bytes that have arrived on a stream. -/
def Spec.arrived (es : List (TcpEvent S)) (s : S) : List Bytes :=
  es.filterMap (fun | .bytes s' c => if s' = s then some c else none | _ => none)

/-- Messages of one stream among messages of all streams. -/
private def ofStream (l : List (M × S)) (s : S) : List M := (l.filter (fun e => e.2 = s)).map (·.1)

private theorem ofStream_append (l l' : List (M × S)) (s : S) :
    ofStream (l ++ l') s = ofStream l s ++ ofStream l' s := by simp [ofStream]

private theorem ofStream_same (l : List M) (s s' : S) :
    ofStream (l.map (fun m => (m, s'))) s = if s' = s then l else [] := by
  induction l with
  | nil => simp [ofStream]
  | cons m l ih =>
    unfold ofStream at *
    by_cases h : s' = s
    · simp_all
    · simp_all

omit [DecidableEq S] in
private theorem stream_messages (q : Queues M S) (s : S) (old new : Rx M) :
    (q.stream s old new).messages = q.messages ++ (new.got.drop old.got.length).map (fun m => (m, s)) := by
  unfold Queues.stream
  dsimp only
  split <;> rfl

private theorem step_inv (P : Pickle M) (bye : M → Bool) (st : TcpState M S) (e : TcpEvent S)
    (h : ∀ s, ofStream (st.handed ++ st.queues.messages) s = (st.rx s).got) :
    ∀ s, ofStream ((st.step P bye e).handed ++ (st.step P bye e).queues.messages) s =
      ((st.step P bye e).rx s).got := by
  intro s
  have hs := h s
  rw [ofStream_append] at hs
  cases e with
  | bytes s' c =>
    unfold TcpState.step
    dsimp only
    rw [stream_messages, ofStream_append, ofStream_append, ofStream_same, ← List.append_assoc, hs]
    by_cases e : s' = s
    · subst e
      simp only [if_true]
      obtain ⟨l, hl⟩ := run_got_prefix P bye { st.rx s' with buf := (st.rx s').buf ++ c }
      unfold Rx.feed
      rw [hl]
      simp
    · have e' : ¬ s = s' := fun x => e x.symm
      simp [e, e']
  | close s' =>
    unfold TcpState.step
    dsimp only
    have hc : ((st.rx s').close).got = (st.rx s').got := by unfold Rx.close; split <;> rfl
    rw [stream_messages, hc, List.drop_length, List.map_nil, List.append_nil, ofStream_append, hs]
    by_cases e : s = s'
    · subst e; simp [hc]
    · simp [e]
  | get =>
    have pop : ∀ q : Queues M S, q.messages = st.queues.messages →
        ofStream (st.handed ++ (q.pop.1.toList ++ q.pop.2.messages)) s = (st.rx s).got := by
      intro q hq
      unfold Queues.pop
      rw [← hs, ← hq]
      cases hm : q.messages with
      | nil => simp [hm, ofStream]
      | cons m ms => simp [ofStream_append]
    unfold TcpState.step Queues.clientMessage Queues.getMessage
    cases he : st.queues.errors with
    | cons e es =>
      by_cases hq : e = some .queueEmpty
      · have := pop { st.queues with errors := es } rfl
        simp only [hq, if_true]
        cases h1 : (Queues.pop ({ st.queues with errors := es } : Queues M S)).1 <;>
          simpa [h1] using this
      · simp only [hq, if_false]
        cases e <;> simpa [ofStream_append] using hs
    | nil =>
      have := pop st.queues rfl
      cases h1 : st.queues.pop.1 <;> simpa [h1] using this

/-- C57: at every moment, what the main loop has got from a client, followed by what is waiting for it in
the queue, is exactly what the receive loop of this client has decoded: nothing is lost, repeated or
reordered, whatever happens on the other connections. -/
theorem C57_fifo (P : Pickle M) (bye : M → Bool) (es : List (TcpEvent S)) (s : S) :
    let st := es.foldl (TcpState.step P bye) TcpState.init
    ((st.handed ++ st.queues.messages).filter (fun e => e.2 = s)).map (·.1) = (st.rx s).got := by
  have : ∀ (st : TcpState M S), (∀ s, ofStream (st.handed ++ st.queues.messages) s = (st.rx s).got) →
      ∀ s, ofStream ((es.foldl (TcpState.step P bye) st).handed ++
        (es.foldl (TcpState.step P bye) st).queues.messages) s =
        ((es.foldl (TcpState.step P bye) st).rx s).got := by
    induction es with
    | nil => exact fun st h => h
    | cons e es ih => exact fun st h => ih _ (step_inv P bye st e h)
  exact this _ (fun s => rfl) s

private theorem rx_arrived (P : Pickle M) (bye : M → Bool) (s : S) :
    ∀ (es : List (TcpEvent S)), (∀ e ∈ es, e ≠ .close s) → ∀ (st : TcpState M S),
      (es.foldl (TcpState.step P bye) st).rx s = (arrived es s).foldl (Rx.feed P bye) (st.rx s)
  | [], _, st => rfl
  | e :: es, hc, st => by
    rw [List.foldl_cons, rx_arrived P bye s es (fun x hx => hc x (List.mem_cons_of_mem _ hx))]
    cases e with
    | bytes s' c =>
      unfold arrived
      by_cases h : s' = s
      · subst h; simp [TcpState.step]
      · have h' : ¬ s = s' := fun x => h x.symm
        simp [TcpState.step, h, h']
    | close s' =>
      have h' : ¬ s = s' := fun x => hc _ List.mem_cons_self (by rw [x])
      unfold arrived
      simp [TcpState.step, h']
    | get =>
      have : (st.step P bye TcpEvent.get).rx = st.rx := by
        unfold TcpState.step
        dsimp only
        split <;> rfl
      rw [this]
      unfold arrived
      simp

/-- C57 end to end: if what has arrived from a client are (the first) bytes of the messages it sent, then the
main loop has got the beginning of the sequence of these messages, in the same order. -/
theorem C57_end_to_end (P : Pickle M) (bye : M → Bool) (es : List (TcpEvent S)) (s : S) (ms : List M)
    (hc : ∀ e ∈ es, e ≠ .close s) (hb : ∀ m ∈ ms, bye m = false)
    (hs : ∀ m ∈ ms, Sendable P m) (hl : ∀ m ∈ ms, Loadable P m)
    (ha : (arrived es s).flatten <+: (sendAll P ⟨false, []⟩ ms).wire) :
    let st := es.foldl (TcpState.step P bye) TcpState.init
    (st.handed.filter (fun e => e.2 = s)).map (·.1) <+: ms := by
  intro st
  have h1 := C57_fifo P bye es s
  have h2 : st.rx s = _ := rx_arrived P bye s es hc TcpState.init
  have h3 := C47_prefix P bye ms hb hs hl (arrived es s) ha
  have h4 : (st.handed.filter (fun e => e.2 = s)).map (·.1) <+: (st.rx s).got := by
    rw [← h1]
    simp only [List.filter_append, List.map_append]
    exact List.prefix_append _ _
  rw [h2] at h4
  exact h4.trans h3

/-- C57, the main loop is told when a connection breaks: one `StreamClosedError` is queued for it, what the
client has sent before stays in the queue, and when the connection is closed again nothing more is queued. -/
theorem C57_close_noticed (P : Pickle M) (bye : M → Bool) (es : List (TcpEvent S)) (s : S) (ms : List M)
    (hc : ∀ e ∈ es, e ≠ .close s) (hb : ∀ m ∈ ms, bye m = false) (hl : ∀ m ∈ ms, Loadable P m)
    (ha : (arrived es s).flatten <+: (sendAll P ⟨false, []⟩ ms).wire) :
    let st := es.foldl (TcpState.step P bye) TcpState.init
    let st' := st.step P bye (.close s)
    st'.queues.errors = st.queues.errors ++ [none] ∧ st'.queues.messages = st.queues.messages ∧
      st'.handed = st.handed ∧ (st'.step P bye (.close s)).queues = st'.queues := by
  intro st st'
  have h2 : st.rx s = _ := rx_arrived P bye s es hc TcpState.init
  have h3 : (st.rx s).ended = none := by
    rw [h2]
    exact C47_waits P bye ms hb hl (arrived es s) ha
  have h4 : (st.rx s).close = { st.rx s with ended := some .closed } := by
    unfold Rx.close
    rw [if_neg (by simp [h3])]
  have h5 : st'.queues = ⟨st.queues.messages, st.queues.errors ++ [none]⟩ := by
    show st.queues.stream s (st.rx s) (st.rx s).close = _
    unfold Queues.stream
    rw [h4, h3]
    simp
  have h6 : st'.rx s = { st.rx s with ended := some .closed } := by
    show (if s = s then (st.rx s).close else st.rx s) = _
    rw [if_pos rfl, h4]
  refine ⟨by rw [h5], by rw [h5], rfl, ?_⟩
  show st'.queues.stream s (st'.rx s) (st'.rx s).close = _
  unfold Queues.stream Rx.close
  rw [h6]
  simp

/-- A client breaks off in the middle of its second message, while its first one is waiting. -/
example : let es : List (TcpEvent Nat) := [.bytes 1 [1, 0], .bytes 2 [1, 0, 0, 0, 4], .bytes 1 [0, 0, 3, 1]]
    (∀ e ∈ es, e ≠ .close 1) ∧
    (arrived es 1).flatten <+: (sendAll toyPickle ⟨false, []⟩ [[3], [5], [6]]).wire ∧
    (((es ++ [TcpEvent.close 1]).foldl (TcpState.step toyPickle (fun _ => false)) TcpState.init).queues.messages) =
      [([4], 2), ([3], 1)] := by
  refine ⟨?_, by decide, by decide +kernel⟩
  intro e he
  simp only [List.mem_cons, List.not_mem_nil, or_false] at he
  rcases he with rfl | rfl | rfl <;> simp

/-- Two clients, one closes its connection. -/
example : let es : List (TcpEvent Nat) := [.bytes 1 [1, 0], .bytes 2 [1, 0, 0, 0, 4], .bytes 1 [0, 0, 3, 1], .get,
      .close 2, .bytes 1 [0, 0, 0, 5], .get, .get]
    (∀ e ∈ es, e ≠ .close 1) ∧
    (arrived es 1).flatten <+: (sendAll toyPickle ⟨false, []⟩ [[3], [5], [6]]).wire ∧
    ((es.foldl (TcpState.step toyPickle (fun _ => false)) TcpState.init).handed) = [([4], 2), ([3], 1)] := by
  refine ⟨?_, by decide, by decide +kernel⟩
  intro e he
  simp only [List.mem_cons, List.not_mem_nil, or_false] at he
  rcases he with rfl | rfl | rfl | rfl | rfl | rfl | rfl | rfl <;> simp

/-! ## Exceptions -/

private theorem run_good {P : Pickle M} {bye : M → Bool} (e : PyErr) : ∀ {ms : List M} {rx : Rx M},
    rx.ended = none → rx.want = none →
    (∀ m ∈ ms, ∃ data, P.dumps m = .ok data ∧ data.length < 2 ^ 32 ∧ P.loads data = .ok m) →
    rx.buf = (ms.map (frame P)).flatten → (Rx.run P bye rx).ended ≠ some (.raised e)
  | [], rx, h, hw, _, hb => by
    rw [run_idle h hw (by simp [hb]), h]
    simp
  | m :: ms, rx, h, hw, hm, hb => by
    obtain ⟨data, h1, h2, h3⟩ := hm m List.mem_cons_self
    rw [List.map_cons, List.flatten_cons] at hb
    rw [run_frame h hw h1 h2 hb, h3]
    dsimp only
    split
    · simp
    · exact run_good e h rfl (fun x hx => hm x (List.mem_cons_of_mem _ hx)) rfl

private theorem feeds_good {P : Pickle M} {bye : M → Bool} {ms : List M} (hs : ∀ m ∈ ms, Sendable P m)
    (hl : ∀ m ∈ ms, Loadable P m) {cs : List Bytes} (hc : cs.flatten <+: (sendAll P ⟨false, []⟩ ms).wire)
    (e : PyErr) : (cs.foldl (Rx.feed P bye) Rx.new).ended ≠ some (.raised e) := by
  intro h
  obtain ⟨rest, hr⟩ := hc
  have h1 := feedAll P bye (cs ++ [rest]) (Rx.new : Rx M) (run_idle rfl rfl (by simp [Rx.new]))
  rw [List.foldl_append, List.foldl_cons, List.foldl_nil] at h1
  have h2 : ((cs.foldl (Rx.feed P bye) Rx.new).feed P bye rest).ended = some (.raised e) := by
    unfold Rx.feed
    rw [run_ended (e := .raised e) (by exact h)]
    exact h
  rw [h1] at h2
  refine run_good (P := P) (bye := bye) (ms := ms) e (rx := { (Rx.new : Rx M) with
    buf := Rx.new.buf ++ (cs ++ [rest]).flatten }) rfl rfl ?_ ?_ h2
  · intro m hm
    obtain ⟨data, h1, h2⟩ := hs m hm
    exact ⟨data, h1, h2, hl m hm data h1⟩
  · rw [sendAll_wire P ms _ rfl] at hr
    simpa [Rx.new] using hr

private theorem arrived_append (es es' : List (TcpEvent S)) (s : S) :
    arrived (es ++ es') s = arrived es s ++ arrived es' s := by
  unfold arrived
  exact List.filterMap_append

private theorem rx_or_closed (P : Pickle M) (bye : M → Bool) (es : List (TcpEvent S)) (s : S) :
    ((es.foldl (TcpState.step P bye) TcpState.init).rx s).ended = some .closed ∨
    (es.foldl (TcpState.step P bye) TcpState.init).rx s = (arrived es s).foldl (Rx.feed P bye) Rx.new := by
  induction es using List.reverseRecOn with
  | nil => exact Or.inr rfl
  | append_singleton es e ih =>
    rw [List.foldl_append, List.foldl_cons, List.foldl_nil, arrived_append, List.foldl_append]
    generalize es.foldl (TcpState.step P bye) TcpState.init = st at *
    cases e with
    | bytes s' c =>
      by_cases h : s = s'
      · subst h
        rcases ih with ih | ih
        · left
          simp only [TcpState.step, if_true]
          unfold Rx.feed
          rw [run_ended (e := .closed) (by exact ih)]
          exact ih
        · right
          simp [TcpState.step, arrived, ih]
      · have h' : ¬ s' = s := fun x => h x.symm
        simpa [TcpState.step, arrived, h, h'] using ih
    | close s' =>
      by_cases h : s = s'
      · subst h
        have e1 : (st.step P bye (.close s)).rx s = (st.rx s).close := by simp [TcpState.step]
        have e2 : arrived [(.close s : TcpEvent S)] s = [] := rfl
        rw [e1, e2]
        unfold Rx.close
        split
        · exact ih
        · exact Or.inl rfl
      · simpa [TcpState.step, arrived, h] using ih
    | get =>
      have : (st.step P bye TcpEvent.get).rx = st.rx := by
        unfold TcpState.step
        dsimp only
        split <;> rfl
      rw [this]
      exact ih

/-- C58, the part that holds: if every client sends only messages that can be pickled and unpickled, the
main loop of the server never sees an exception of the TCP layer, in whatever pieces the messages arrive, and
whatever connections are closed at whatever moment. -/
theorem C58_never_raises_partial (P : Pickle M) (bye : M → Bool) (es : List (TcpEvent S))
    (h : ∀ s, ∃ ms, (∀ m ∈ ms, Sendable P m) ∧ (∀ m ∈ ms, Loadable P m) ∧
      (arrived es s).flatten <+: (sendAll P ⟨false, []⟩ ms).wire) :
    (es.foldl (TcpState.step P bye) (TcpState.init : TcpState M S)).raised = [] := by
  have key : ∀ es : List (TcpEvent S), (∀ s, ∃ ms, (∀ m ∈ ms, Sendable P m) ∧ (∀ m ∈ ms, Loadable P m) ∧
      (arrived es s).flatten <+: (sendAll P ⟨false, []⟩ ms).wire) → ∀ s e,
      ((es.foldl (TcpState.step P bye) (TcpState.init : TcpState M S)).rx s).ended ≠ some (.raised e) := by
    intro es h s e he
    obtain ⟨ms, h1, h2, h3⟩ := h s
    rcases rx_or_closed P bye es s with hc | hc
    · rw [hc] at he; cases he
    · rw [hc] at he; exact feeds_good h1 h2 h3 e he
  suffices h' : (es.foldl (TcpState.step P bye) (TcpState.init : TcpState M S)).raised = [] ∧
      ∀ e ∈ (es.foldl (TcpState.step P bye) (TcpState.init : TcpState M S)).queues.errors, e = none from h'.1
  induction es using List.reverseRecOn with
  | nil => exact ⟨rfl, fun e he => by simp [TcpState.init] at he⟩
  | append_singleton es e ih =>
    have hes : ∀ s, ∃ ms, (∀ m ∈ ms, Sendable P m) ∧ (∀ m ∈ ms, Loadable P m) ∧
        (arrived es s).flatten <+: (sendAll P ⟨false, []⟩ ms).wire := by
      intro s
      obtain ⟨ms, h1, h2, h3⟩ := h s
      refine ⟨ms, h1, h2, List.IsPrefix.trans ?_ h3⟩
      rw [arrived_append, List.flatten_append]
      exact List.prefix_append _ _
    have hn := key _ h
    obtain ⟨ih1, ih2⟩ := ih hes
    rw [List.foldl_append, List.foldl_cons, List.foldl_nil] at *
    generalize es.foldl (TcpState.step P bye) (TcpState.init : TcpState M S) = st at *
    have hq : ∀ s new, (∀ e, new.ended ≠ some (.raised e)) →
        ∀ e ∈ (st.queues.stream s (st.rx s) new).errors, e = none := by
      intro s new hn e he
      unfold Queues.stream at he
      dsimp only at he
      split at he
      · rcases List.mem_append.1 he with he | he
        · exact ih2 e he
        · exact List.mem_singleton.1 he
      · rename_i e' _ h'; exact absurd h' (hn _)
      · exact ih2 e he
    cases e with
    | bytes s c =>
      refine ⟨ih1, hq s _ (fun e he => hn s e ?_)⟩
      simpa [TcpState.step] using he
    | close s =>
      refine ⟨ih1, hq s _ (fun e he => hn s e ?_)⟩
      simpa [TcpState.step] using he
    | get =>
      unfold TcpState.step Queues.clientMessage Queues.getMessage
      cases he : st.queues.errors with
      | cons e es' =>
        have : e = none := ih2 e (he ▸ List.mem_cons_self)
        subst this
        exact ⟨ih1, fun x hx => ih2 x (he ▸ List.mem_cons_of_mem _ hx)⟩
      | nil =>
        have hp : st.queues.pop.2.errors = st.queues.errors := by unfold Queues.pop; split <;> rfl
        dsimp only
        cases h1 : st.queues.pop.1 <;> exact ⟨ih1, fun x hx => ih2 x (hp ▸ hx)⟩

/-- The hypothesis of `C58_never_raises_partial` for two clients, one of which closes its connection in the
middle of a message. -/
example : let es : List (TcpEvent (Fin 2)) := [.bytes 0 [1, 0], .bytes 1 [1, 0, 0, 0, 4], .bytes 0 [0, 0, 3], .get,
      .close 0, .get]
    (∀ s, ∃ ms, (∀ m ∈ ms, Sendable toyPickle m) ∧ (∀ m ∈ ms, Loadable toyPickle m) ∧
      (arrived es s).flatten <+: (sendAll toyPickle ⟨false, []⟩ ms).wire) := by
  have hg : ∀ m ∈ ([[3], [4]] : List Bytes), Sendable toyPickle m ∧ Loadable toyPickle m := by
    intro m hm
    simp only [List.mem_cons, List.not_mem_nil, or_false] at hm
    rcases hm with rfl | rfl <;> exact ⟨⟨_, rfl, by decide⟩, fun data h => by cases h; rfl⟩
  intro es s
  match s with
  | 0 => exact ⟨[[3]], fun m hm => (hg m (by simp_all)).1, fun m hm => (hg m (by simp_all)).2, by decide⟩
  | 1 => exact ⟨[[4]], fun m hm => (hg m (by simp_all)).1, fun m hm => (hg m (by simp_all)).2, by decide⟩

/-- C58 is false: one message that cannot be unpickled (for instance a `BlockFailed` with an exception whose
class needs more arguments than it passes to `Exception.__init__`) raises in the main loop of the server, and
ends the whole run.  The messages the same client sends afterwards are never read. -/
theorem C58_false : ∃ (P : Pickle Bytes) (ms : List Bytes) (es : List (TcpEvent Nat)),
    (∀ m ∈ ms, Sendable P m) ∧ (arrived es 1).flatten = (sendAll P ⟨false, []⟩ ms).wire ∧
    (es.foldl (TcpState.step P (fun _ => false)) TcpState.init).raised = [.typeError] ∧
    (es.foldl (TcpState.step P (fun _ => false)) TcpState.init).handed.length < ms.length := by
  refine ⟨toyPickle, [[7], [3]], [.bytes 1 [1, 0, 0, 0, 7, 1, 0, 0, 0, 3], .get, .get], ?_, by decide,
    by decide +kernel, by decide +kernel⟩
  intro m hm
  simp only [List.mem_cons, List.not_mem_nil, or_false] at hm
  rcases hm with rfl | rfl <;> exact ⟨_, rfl, by decide⟩

end Verif
