import Verif.Proofs.TcpThreads
import Verif.Props.Client

/-! # C115: the two threads of a TCP client

Whether the calls of the main thread look as if they were made at once, what can go wrong if not, and that no worker waits
for a server that is gone. -/

namespace Verif.Props

open Verif FineTcp Spec.Threads

variable {B T : Type} {s : FineTcp B T}

/-- The claim: whatever the thread of the IO loop does between the statements of `send_message` and `get_message`, the
calls look as if they had been made at once. -/
def C115_statement : Prop :=
  ∀ (B T : Type) (s : FineTcp B T), Alive s → ∀ (c r a i : List (IoEv B)) (m : ClientMsg B T),
    AtOnce s (fun s => s.send m [] [] [] []) (c ++ r ++ a ++ i) (s.send m c r a i) ∧
    AtOnce s (fun s => s.get [] [] []) (c ++ r ++ a) (s.get c r a)

/-! ## Calls as if at once -/

/-- `get_message` looks as if made at once, unless the exception of `_receive` came after it was looked for, and
`self.stream` was cleared before it was looked at. -/
theorem C115_get (hs : Sound s) (c r k : List (IoEv B)) :
    AtOnce s (fun s => s.get [] [] []) (c ++ r ++ k) (s.get c r k) ↔
      ¬ ((s.ioRun c).excs = [] ∧ (s.ioRun (c ++ r)).excs ≠ [] ∧ (s.ioRun (c ++ r)).outer = false) := by
  have hsc := sound_run c hs
  constructor
  · rintro ⟨a, b, hp, h⟩ ⟨h1, h2, h3⟩
    rw [ioRun_append] at h2 h3
    rw [get_gone h1 h3] at h
    have h0 := excs_back h1
    have h5 : (s.ioRun c).ioRun r = (s.ioRun a |>.get [] [] []).2.ioRun b := congrArg Prod.snd h
    have h4 : Except.error .notConnected = (s.ioRun a |>.get [] [] []).1 := congrArg Prod.fst h
    rcases get_cases (s.ioRun a) [] [] [] with ⟨e, x, g1, g2⟩ | ⟨g1, g2, g3⟩ | ⟨_, _, _, g4⟩ | ⟨m, x, _, _, _, g4⟩
    · rw [g2] at h5
      rw [ioRun_nil] at g1 h5
      rcases excs_one a h0 with he | ⟨e', he, hl⟩
      · rw [he] at g1; cases g1
      · rw [he] at g1; cases g1
        rw [h5] at h2
        exact h2 (excs_quiet (s := { s.ioRun a with excs := [] }) b hl)
    · rw [g3] at h5
      simp only [ioRun_nil] at g1 g2 h5
      rw [over_run b ((sound_run a hs).outer.1 g2)] at h5
      rw [h5] at h2
      exact h2 g1
    · rw [g4] at h4; cases h4
    · rw [g4] at h4; cases h4
  · intro hn
    rw [ioRun_append] at hn
    rcases get_cases s c r k with ⟨e, x, g1, g2⟩ | ⟨g1, g2, g3⟩ | ⟨g1, g2, g3, g4⟩ | ⟨m, x, g1, g2, g3, g4⟩
    · refine ⟨c, [], ?_, ?_⟩
      · rw [List.append_nil, List.append_assoc]; exact List.prefix_append _ _
      · rw [g2, ioRun_nil]
        exact (get_exc (s := s.ioRun c) (c := []) g1 [] []).symm
    · have he : ((s.ioRun c).ioRun r).excs = [] := by
        by_contra hne
        exact hn ⟨g1, hne, g2⟩
      refine ⟨c ++ r, [], by rw [List.append_nil]; exact List.prefix_append _ _, ?_⟩
      rw [g3, ioRun_nil, ioRun_append]
      exact (get_gone (s := (s.ioRun c).ioRun r) (c := []) (r := []) he g2 []).symm
    · refine ⟨c, r ++ k, by simp, ?_⟩
      have e := get_none (s := s.ioRun c) (c := []) (r := []) (k := []) g1 (outer_back g2) (inbox_back (inbox_back g3))
      dsimp only
      rw [g4, e, ioRun_append]
      rfl
    · cases hic : (s.ioRun c).inbox with
      | cons m' x' =>
        refine ⟨c, r ++ k, by simp, ?_⟩
        have e := get_some (s := s.ioRun c) (c := []) (r := []) (k := []) g1 (outer_back g2) hic
        have e' := inbox_run (r ++ k) (s.ioRun c) m' x'
        rw [← hic] at e'
        change (s.ioRun c).ioRun (r ++ k) = _ at e'
        dsimp only
        rw [g4, e]
        rw [← ioRun_append] at g3 ⊢
        rw [e'] at g3 ⊢
        simp only [List.cons.injEq] at g3
        obtain ⟨rfl, rfl⟩ := g3
        rfl
      | nil =>
        rw [← ioRun_append] at g3
        obtain ⟨a, b, h1, h2, h3, h4⟩ := first_message _ _ g1 hic g3
        refine ⟨c ++ a, b, by rw [List.append_assoc, ← h1]; simp, ?_⟩
        have ho : ((s.ioRun c).ioRun a).outer = true := by
          have := (sound_run a hsc).outer
          rw [h3] at this
          simpa using this
        have e := get_some (s := (s.ioRun c).ioRun a) (c := []) (r := []) (k := []) h2 ho h4
        have e' := inbox_run b ((s.ioRun c).ioRun a) m []
        rw [← h4] at e'
        change ((s.ioRun c).ioRun a).ioRun b = _ at e'
        dsimp only
        rw [g4, ioRun_append, e]
        have e2 : ((s.ioRun c).ioRun r).ioRun k = ((s.ioRun c).ioRun a).ioRun b := by
          rw [← ioRun_append, h1, ioRun_append]
        rw [ioRun_append, e2, e'] at g3
        rw [e2, e']
        simp only [List.cons.injEq] at g3
        obtain ⟨_, rfl⟩ := g3
        rfl

/-- If the server can be understood, `send_message` looks as if made at once, unless `self.stream` was cleared between the
two places where it is read, or the exception of `_receive` came after it was looked for and `self.stream` was
cleared before the first of them. -/
theorem C115_send (hs : Sound s) (hl : OnlyLost s) (m : ClientMsg B T) (c r a i : List (IoEv B))
    (hu : Understood (c ++ r ++ a ++ i)) :
    AtOnce s (fun s => s.send m [] [] [] []) (c ++ r ++ a ++ i) (s.send m c r a i) ↔
      ¬ ((s.ioRun c).excs = [] ∧ (s.ioRun (c ++ r)).excs ≠ [] ∧ (s.ioRun (c ++ r)).outer = false) ∧
      ¬ ((s.ioRun c).excs = [] ∧ (s.ioRun (c ++ r)).outer = true ∧ (s.ioRun (c ++ r ++ a)).outer = false) := by
  have hsc := sound_run c hs
  have huc : Understood c := fun x hx => hu x (by simp [hx])
  have hlc := onlyLost_run huc hl
  constructor
  · rintro ⟨p, q, hp, h⟩
    have h4 : (s.send m c r a i).1 = ((s.ioRun p).send m [] [] [] []).1 := by rw [h]
    have h5 : (s.send m c r a i).2 = ((s.ioRun p).send m [] [] [] []).2.ioRun q := by rw [h]
    constructor
    · rintro ⟨h1, h2, h3⟩
      rw [ioRun_append] at h2 h3
      rw [send_gone m h1 h3] at h4 h5
      dsimp only at h4 h5
      have h0 := excs_back h1
      cases he : (s.ioRun p).excs with
      | cons e x =>
        rw [send_exc (s := s.ioRun p) (c := []) m he] at h5
        rcases excs_one p h0 with he' | ⟨e', he', hl'⟩
        · rw [he'] at he; cases he
        · rw [he'] at he; cases he
          rw [h5] at h2
          exact h2 (excs_quiet (s := { s.ioRun p with excs := [] }) q hl')
      | nil =>
        cases ho : (s.ioRun p).outer with
        | false =>
          rw [send_gone (s := s.ioRun p) (c := []) (r := []) m he ho] at h5
          simp only [ioRun_nil] at h5
          rw [over_run q ((sound_run p hs).outer.1 ho)] at h5
          rw [h5] at h2
          exact h2 he
        | true =>
          rw [send_post (s := s.ioRun p) (c := []) (r := []) m he ho] at h4
          simp only [ioRun_nil] at h4
          cases hi : (s.ioRun p).inner with
          | false => rw [post_closed (s := s.ioRun p) (a := []) (i := []) m ho hi] at h4; cases h4
          | true => rw [post_ok (s := s.ioRun p) (a := []) (i := []) m ho hi] at h4; cases h4
    · rintro ⟨h1, h2, h3⟩
      rw [ioRun_append, ioRun_append] at h3
      rw [ioRun_append] at h2
      rw [send_post m h1 h2, post_raises m h3] at h4
      dsimp only at h4
      have hlp : OnlyLost (s.ioRun p) := onlyLost_run (fun x hx => hu x
        (hp.subset (List.mem_append_left _ hx))) hl
      cases he : (s.ioRun p).excs with
      | cons e x =>
        rw [send_exc (s := s.ioRun p) (c := []) m he] at h4
        injection h4 with h4
        exact hlp.excs e (by rw [he]; exact List.mem_cons_self) h4.symm
      | nil =>
        cases ho : (s.ioRun p).outer with
        | false =>
          rw [send_gone (s := s.ioRun p) (c := []) (r := []) m he ho] at h4
          injection h4 with h4
          cases h4
        | true =>
          rw [send_post (s := s.ioRun p) (c := []) (r := []) m he ho] at h4
          simp only [ioRun_nil] at h4
          cases hi : (s.ioRun p).inner with
          | false => rw [post_closed (s := s.ioRun p) (a := []) (i := []) m ho hi] at h4; injection h4 with h4; cases h4
          | true => rw [post_ok (s := s.ioRun p) (a := []) (i := []) m ho hi] at h4; cases h4
  · rintro ⟨hn1, hn2⟩
    cases he : (s.ioRun c).excs with
    | cons e x =>
      refine ⟨c, [], ?_, ?_⟩
      · rw [List.append_nil, List.append_assoc, List.append_assoc]; exact List.prefix_append _ _
      · rw [send_exc m he, ioRun_nil]
        exact (send_exc (s := s.ioRun c) (c := []) m he [] [] []).symm
    | nil =>
      cases ho : (s.ioRun (c ++ r)).outer with
      | false =>
        have he' : (s.ioRun (c ++ r)).excs = [] := by
          by_contra hne
          exact hn1 ⟨he, hne, ho⟩
        refine ⟨c ++ r, [], ?_, ?_⟩
        · rw [List.append_nil, List.append_assoc (c ++ r)]; exact List.prefix_append _ _
        · have e := send_gone (s := s.ioRun (c ++ r)) (c := []) (r := []) m he' ho [] []
          dsimp only
          rw [e]
          rw [ioRun_append] at ho
          rw [send_gone m he ho, ← ioRun_append]
          rfl
      | true =>
        have ho' : (s.ioRun (c ++ r ++ a)).outer = true := by
          by_contra hne
          exact hn2 ⟨he, ho, by simpa using hne⟩
        have hoc : (s.ioRun c).outer = true := by
          rw [ioRun_append] at ho
          exact outer_back ho
        have e0 := send_post m he (by rw [← ioRun_append]; exact ho) a i
        rw [← ioRun_append] at e0
        cases hi : (s.ioRun (c ++ r ++ a ++ i)).inner with
        | true =>
          refine ⟨c, r ++ a ++ i, by simp, ?_⟩
          have hic : (s.ioRun c).inner = true := by
            rw [List.append_assoc, List.append_assoc, ioRun_append] at hi
            exact inner_back hi
          have e1 := post_ok (s := s.ioRun (c ++ r)) (a := a) (i := i) m
            (by rw [← ioRun_append]; exact ho') (by rw [← ioRun_append, ← ioRun_append, ← List.append_assoc]; exact hi)
          have e2 := send_post (s := s.ioRun c) (c := []) (r := []) m he hoc [] []
          have e3 := post_ok (s := s.ioRun c) (a := []) (i := []) m hoc hic
          simp only [ioRun_nil] at e2 e3
          dsimp only
          have e4 := posted_run (r ++ a ++ i) (s.ioRun c) ((s.ioRun c).posted ++ [m])
          rw [e0, e1, e2, e3]
          dsimp only at e4 ⊢
          rw [e4]
          simp only [posted_same, ioRun_append]
        | false =>
          have hi' := hi
          rw [show c ++ r ++ a ++ i = c ++ (r ++ a ++ i) by simp, ioRun_append] at hi
          obtain ⟨p, q, h1, h2, h3, h4⟩ := first_closed (r ++ a ++ i) (s.ioRun c)
            (fun x hx => hu x (by simp at hx ⊢; tauto)) hsc hlc he hoc hi
          refine ⟨c ++ p, q, by rw [List.append_assoc, ← h1]; simp, ?_⟩
          have e1 := post_closed (s := s.ioRun (c ++ r)) (a := a) (i := i) m
            (by rw [← ioRun_append]; exact ho') (by rw [← ioRun_append, ← ioRun_append, ← List.append_assoc]; exact hi')
          have e2 := send_post (s := (s.ioRun c).ioRun p) (c := []) (r := []) m h2 h3 [] []
          have e3 := post_closed (s := (s.ioRun c).ioRun p) (a := []) (i := []) m h3 h4
          simp only [ioRun_nil] at e2 e3
          dsimp only
          rw [e0, e1, ioRun_append s c p, e2, e3, ← ioRun_append, ← ioRun_append, ← ioRun_append s c p, ← ioRun_append,
            List.append_assoc c p q, ← h1]
          simp only [List.append_assoc]

theorem onlyLost_up (h : Alive s) : OnlyLost s := by
  refine ⟨fun e he => ?_, fun e he => ?_⟩
  · rw [h.io] at he; cases he
  · rw [h.excs] at he; cases he

/-- As long as only messages arrive, both calls look as if made at once, and raise nothing. -/
theorem C115_quiet (h : Alive s) (m : ClientMsg B T) {c r a i : List (IoEv B)} (hq : OnlyRecv (c ++ r ++ a ++ i)) :
    (AtOnce s (fun s => s.send m [] [] [] []) (c ++ r ++ a ++ i) (s.send m c r a i) ∧
      (s.send m c r a i).1 = .ok ()) ∧
    AtOnce s (fun s => s.get [] [] []) (c ++ r ++ a) (s.get c r a) ∧ ∃ x, (s.get c r a).1 = .ok x := by
  have hc : OnlyRecv c := fun x hx => hq x (by simp [hx])
  have hr : OnlyRecv r := fun x hx => hq x (by simp [hx])
  have ha : OnlyRecv a := fun x hx => hq x (by simp [hx])
  have hi : OnlyRecv i := fun x hx => hq x (by simp [hx])
  have u1 := recv_run hc h
  have u2 := recv_run hr u1
  have u3 := recv_run ha u2
  have u4 := recv_run hi u3
  refine ⟨⟨?_, ?_⟩, ?_, ?_⟩
  · refine (C115_send (sound_up h) (onlyLost_up h) m c r a i ?_).2 ⟨?_, ?_⟩
    · intro x hx e he
      obtain ⟨m', rfl⟩ := hq x hx
      cases he
    · rintro ⟨_, _, h3⟩
      rw [ioRun_append, u2.outer] at h3
      cases h3
    · rintro ⟨_, _, h3⟩
      rw [ioRun_append, ioRun_append, u3.outer] at h3
      cases h3
  · rw [send_post m u1.excs u2.outer, post_ok m u3.outer u4.inner]
  · refine (C115_get (sound_up h) c r a).2 ?_
    rintro ⟨_, _, h3⟩
    rw [ioRun_append, u2.outer] at h3
    cases h3
  · cases hx : (((s.ioRun c).ioRun r).ioRun a).inbox with
    | nil => exact ⟨_, congrArg Prod.fst (get_none u1.excs u2.outer hx)⟩
    | cons m' x => exact ⟨_, congrArg Prod.fst (get_some u1.excs u2.outer hx)⟩

namespace Ex.Threads

/-- A client that has just connected. -/
def fresh : FineTcp (Fin 2) (Fin 2) := ⟨[], true, true, [], [], .reading⟩

theorem fresh_up : Alive fresh := ⟨rfl, rfl, rfl, rfl⟩

/-- The connection is lost, and `_receive` runs to its end. -/
def vanish : List (IoEv (Fin 2)) := [.lost, .go, .go, .go]

end Ex.Threads

open Ex.Threads

/-- The claim is false: the connection is lost after `get_message` looked for exceptions. -/
theorem C115_false : ¬ C115_statement := by
  intro h
  exact (C115_get (sound_up fresh_up) [] vanish []).1 (h _ _ fresh fresh_up [] vanish [] [] .disconnect).2
    ⟨by decide, by decide, by decide⟩

/-- `send_message` raises `AttributeError` if the connection is lost between the two places where `self.stream` is read;
made at once it raises no such thing. -/
theorem C115_send_false : (fresh.send (.acquire 0) [] [] vanish []).1 = .error attributeError ∧
    ¬ AtOnce fresh (fun s => s.send (.acquire 0) [] [] [] []) vanish (fresh.send (.acquire 0) [] [] vanish []) := by
  refine ⟨by decide, fun h => ?_⟩
  refine ((C115_send (sound_up fresh_up) (onlyLost_up fresh_up) (.acquire 0) [] [] vanish [] ?_).1 ?_).2 ⟨?_, ?_, ?_⟩
  · intro x hx e he
    subst he
    revert hx
    simp [vanish]
  · exact h
  · decide
  · decide
  · decide

/-- A message that cannot be understood is another case: the exception is put into the queue and the stream closed after
`send_message` looked for exceptions, so that it raises `StreamClosedError`, and not that exception. -/
theorem C115_bad_false : ¬ AtOnce fresh (fun s => s.send (.acquire 0) [] [] [] [])
    [.bad (.exception "UnpicklingError"), .go, .go]
    (fresh.send (.acquire 0) [] [] [] [.bad (.exception "UnpicklingError"), .go, .go]) := by
  rintro ⟨a, b, hp, h⟩
  have key : ∀ a ∈ [[], [.bad (.exception "UnpicklingError")], [.bad (.exception "UnpicklingError"), .go],
      [.bad (.exception "UnpicklingError"), .go, (.go : IoEv (Fin 2))]],
      ((fresh.ioRun a).send (.acquire 0) [] [] [] []).1 ≠ .error .streamClosed := by decide
  have ha : a <+: [.bad (.exception "UnpicklingError"), .go, .go] := (List.prefix_append a b).trans hp
  have hm : a ∈ [[], [.bad (.exception "UnpicklingError")], [.bad (.exception "UnpicklingError"), .go],
      [.bad (.exception "UnpicklingError"), .go, (.go : IoEv (Fin 2))]] := by
    rcases List.prefix_cons_iff.1 ha with rfl | ⟨a1, rfl, ha1⟩
    · simp
    rcases List.prefix_cons_iff.1 ha1 with rfl | ⟨a2, rfl, ha2⟩
    · simp
    rcases List.prefix_cons_iff.1 ha2 with rfl | ⟨a3, rfl, ha3⟩
    · simp
    rw [List.prefix_nil.1 ha3]
    simp
  refine key a hm ?_
  have h1 := congrArg Prod.fst h
  rw [show (fresh.send (.acquire 0) [] [] [] [.bad (.exception "UnpicklingError"), .go, .go]).1 =
    .error .streamClosed by decide] at h1
  exact h1.symm

/-! ## A server that vanishes -/

/-- C61 at this level: `acquire_block` does not raise if the connection is up when it is called, and lost later. -/
def C115_calm_statement : Prop :=
  ∀ (B T : Type) (t : T) (s : FineTcp B T) (e : SendEnv B) (gs : List (GetEnv B)) (d : ByeEnv B) (x : ClientErr)
    (s' : FineTcp B T), Alive s → .other ∉ s.inbox → Calm (e.check ++ e.read ++ e.again ++ e.inner) →
    (∀ g ∈ gs, Calm g.all) → Calm (d.read ++ d.again ++ d.inner) → enter t s e gs d ≠ .raises x s'

/-- Where the thread of the IO loop does nothing. -/
def SendEnv.still : SendEnv (Fin 2) := ⟨[], [], [], []⟩

/-- It is false: if the client waits, it may raise `NotConnected` ... -/
theorem C115_waiting_false : ∃ s', enter 0 fresh SendEnv.still [⟨[], [], []⟩, ⟨[], vanish, []⟩] ⟨[], [], []⟩ =
    .raises .notConnected s' := ⟨_, rfl⟩

/-- ... if it asks for a block, `AttributeError` ... -/
theorem C115_asking_false : ∃ s', enter 0 fresh ⟨[], [], vanish, []⟩ [] ⟨[], [], []⟩ = .raises attributeError s' :=
  ⟨_, rfl⟩

/-- ... and if it was told that there are no more blocks, that or `StreamClosedError`. -/
theorem C115_leaving_false :
    (∃ s', enter 0 fresh SendEnv.still [⟨[.recv .requestShutdown], [], []⟩] ⟨[], vanish, []⟩ =
      .raises attributeError s') ∧
    ∃ s', enter 0 fresh SendEnv.still [⟨[.recv .requestShutdown], [], []⟩] ⟨[], [], [.lost]⟩ =
      .raises .streamClosed s' := ⟨⟨_, rfl⟩, _, rfl⟩

theorem C115_calm_false : ¬ C115_calm_statement := by
  intro h
  obtain ⟨s', hs⟩ := C115_waiting_false
  refine h _ _ 0 fresh SendEnv.still _ ⟨[], [], []⟩ .notConnected s' fresh_up (by simp [fresh]) ?_ ?_ ?_ hs
  · intro x hx; simp [SendEnv.still] at hx
  · intro g hg
    simp only [List.mem_cons, List.not_mem_nil, or_false] at hg
    rcases hg with rfl | rfl
    · intro x hx; simp [GetEnv.all] at hx
    · intro x hx
      simp [GetEnv.all, vanish] at hx
      rcases hx with rfl | rfl
      · exact Or.inl rfl
      · exact Or.inr (Or.inl rfl)
  · intro x hx; simp at hx

/-- C115, partial: if only messages arrive while the request is sent, and between the first two statements of every call of
`get_message`, then only saying goodbye can raise.  Missing: the interruptions for which it is false. -/
theorem C115_calm_partial (t : T) (h : Alive s) (hi : .other ∉ s.inbox) {e : SendEnv B} {gs : List (GetEnv B)}
    {d : ByeEnv B} (he : Calm (e.check ++ e.read ++ e.again ++ e.inner))
    (heq : OnlyRecv (e.check ++ e.read ++ e.again ++ e.inner)) (hg : ∀ g ∈ gs, Calm g.all ∧ OnlyRecv g.read)
    {x : ClientErr} {s' : FineTcp B T} (hx : enter t s e gs d = .raises x s') :
    ∃ (s0 : FineTcp B T) (waits : List (List (IoEv B))), s0.bye d.read d.again d.inner waits = some (.error x, s') := by
  have hq : ∀ l : List (IoEv B), (∀ ev ∈ l, ev ∈ e.check ++ e.read ++ e.again ++ e.inner) → OnlyRecv l :=
    fun l hl ev hev => heq ev (hl ev hev)
  have u1 := recv_run (hq e.check (fun _ h => by simp [h])) h
  have u2 := recv_run (hq e.read (fun _ h => by simp [h])) u1
  have u3 := recv_run (hq e.again (fun _ h => by simp [h])) u2
  have u4 := recv_run (hq e.inner (fun _ h => by simp [h])) u3
  unfold enter at hx
  rw [send_post _ u1.excs u2.outer, post_ok _ u3.outer u4.inner] at hx
  refine await_calm d gs _ ?_ (fun g hgm => ?_) hx
  · have hb := books_run he (books_up h hi)
    rw [ioRun_append, ioRun_append, ioRun_append] at hb
    exact ⟨⟨hb.1.1, hb.1.2, hb.1.3⟩, hb.2, hb.3, hb.4⟩
  · obtain ⟨h1, h2⟩ := hg g hgm
    exact ⟨fun ev hev => h1 ev (by simp [GetEnv.all, hev]), fun ev hev => h1 ev (by simp [GetEnv.all, hev]),
      fun ev hev => h1 ev (by simp [GetEnv.all, hev]), h2⟩

/-- Saying goodbye raises only if the connection was up when `disconnect` looked, and is lost when it writes. -/
theorem C115_bye {d1 d2 d3 : List (IoEv B)} {waits : List (List (IoEv B))} {x : ClientErr} {s' : FineTcp B T}
    (hs : Sound s) (h : s.bye d1 d2 d3 waits = some (.error x, s')) :
    (s.ioRun d1).outer = true ∧ s'.inner = false ∧ (x = attributeError ∨ x = .streamClosed) := by
  unfold bye at h
  dsimp only at h
  cases ho : (s.ioRun d1).outer with
  | false => rw [ho] at h; cases h
  | true =>
    rw [ho] at h
    simp only [Bool.not_true, Bool.false_eq_true, if_false] at h
    cases ho2 : ((s.ioRun d1).ioRun d2).outer with
    | false =>
      rw [post_raises _ ho2] at h
      cases h
      have hs2 := sound_run d2 (sound_run d1 hs)
      exact ⟨rfl, hs2.over (hs2.outer.1 ho2), Or.inl rfl⟩
    | true =>
      cases hi : (((s.ioRun d1).ioRun d2).ioRun d3).inner with
      | false =>
        rw [post_closed _ ho2 hi] at h
        cases h
        exact ⟨rfl, hi, Or.inr rfl⟩
      | true =>
        rw [post_ok _ ho2 hi] at h
        simp only [Option.map_eq_some_iff] at h
        obtain ⟨y, _, hy⟩ := h
        cases hy

/-! ## No worker waits for a server that is gone -/

/-- If the connection is lost while the client waits, for a block or for the end of the connection, it stops waiting; at
the latest with the next call of `get_message`. -/
theorem C115_waits (hs : Sound s) (d : ByeEnv B) {gs : List (GetEnv B)} (hg : Gone (gs.flatMap GetEnv.all))
    (g : GetEnv B) (gs' : List (GetEnv B)) : await d s (gs ++ g :: gs') ≠ .waiting :=
  await_ends d s.io g gs' gs [] s hs rfl (by simpa using hg)

/-- If it is lost while the process function runs, the `with` statement raises. -/
theorem C115_works (hs : Sound s) (b : B) (body : BodyEnd) {e e' : SendEnv B} (hg : Gone e.check) :
    ∃ x s', s.leave b body e e' = (some x, s') := by
  have hfin : ∀ (s : FineTcp B T) (st : StatusVal) (pe : Option ClientErr) (e : SendEnv B), Sound s →
      (s.ioRun e.check).io = .over → ∃ x s', s.finish b st pe e = (some x, s') := by
    intro s st pe e hs ho
    obtain ⟨x, s', h1, _⟩ := send_over hs ho (.release b (if st ≠ .enum .success then .enum .failed else st))
      e.read e.again e.inner
    refine ⟨x, s', ?_⟩
    unfold finish
    dsimp only
    rw [h1]
  have ho := gone_over e.check s hg
  unfold leave
  cases body.raised with
  | none => exact hfin s _ none e hs ho
  | some x =>
    dsimp only
    split
    · obtain ⟨y, s', h1, h2, h3⟩ := send_over hs ho (.blockFailed b x) e.read e.again e.inner
      rw [h1]
      exact hfin s' _ _ e' h2 (by rw [over_run _ h3]; exact h3)
    · exact hfin s _ (some x) e hs ho

/-- When the connection is gone, the loop of a worker ends with its next call; when it is lost during a turn of the loop,
wherever the worker is, the loop ends with this turn. -/
theorem C115_ends (t : T) (hs : Sound s) (u : Turn B) (us : List (Turn B))
    (h : s.io = .over ∨ Gone (u.gets.dropLast.flatMap GetEnv.all) ∧ Gone u.first.check) :
    (∃ s', processBlocks t s (u :: us) = .returned s') ∨ ∃ x s', processBlocks t s (u :: us) = .raised x s' := by
  unfold processBlocks
  rcases h with h | ⟨h1, h2⟩
  · obtain ⟨x, s', h1, _⟩ := send_over hs (c := u.ask.check) (by rw [over_run _ h]; exact h) (.acquire t) u.ask.read
      u.ask.again u.ask.inner
    unfold enter
    rw [h1]
    exact Or.inr ⟨x, s', rfl⟩
  · cases hx : s.enter t u.ask u.gets u.leave with
    | raises x s' => exact Or.inr ⟨x, s', rfl⟩
    | none s' => exact Or.inl ⟨s', rfl⟩
    | waiting =>
      exfalso
      unfold enter at hx
      cases hsend : s.send (.acquire t) u.ask.check u.ask.read u.ask.again u.ask.inner with
      | mk r s' =>
        rw [hsend] at hx
        cases r with
        | error x => cases hx
        | ok v =>
          have hs' : Sound s' := send_sound hs hsend
          cases hgets : u.gets with
          | nil => rw [hgets] at h1; cases h1
          | cons g gs =>
            have hne : u.gets ≠ [] := by rw [hgets]; simp
            have e := List.dropLast_append_getLast hne
            have hw := C115_waits hs' u.leave h1 (u.gets.getLast hne) []
            rw [e] at hw
            exact hw hx
    | block b s' =>
      have hs' : Sound s' := enter_sound hs hx
      obtain ⟨x, s'', h3⟩ := C115_works hs' b (u.body b) (e' := u.second) h2
      dsimp only
      rw [h3]
      exact Or.inr ⟨x, s'', rfl⟩

/-! ## The model of `Model/Client` -/

/-- If the IO loop does nothing during calls and leaves nothing half done between them, `acquire_block` does up to the
`yield` what it does in `Model/Client`. -/
theorem C115_enter {c : TcpClient B T} (h : Same s c) (t : T) (envs : List (List (NetEv B))) :
    SameEntered (s.enter t (sendAtOnce []) (envs.map getAtOnce) byeAtOnce) (Client.enter t c envs) := by
  unfold enter Client.enter
  have hs := same_send [] h (.acquire t)
  rw [List.foldl_nil] at hs
  revert hs
  rcases s.send (.acquire t) (sendAtOnce []).check (sendAtOnce []).read (sendAtOnce []).again (sendAtOnce []).inner with
    ⟨_ | _, s'⟩ <;> rcases c.send (.acquire t) with ⟨e', c'⟩ | c' <;> intro hs
  · exact hs
  · exact hs.elim
  · exact hs.elim
  · exact same_await envs hs.2

/-- And after it. -/
theorem C115_leave {c : TcpClient B T} (h : Same s c) (b : B) (body : BodyEnd) (evs evs' : List (NetEv B)) :
    (s.leave b body (sendAtOnce evs) (sendAtOnce evs')).1 = (Client.leave c b body evs evs').1 ∧
      Same (s.leave b body (sendAtOnce evs) (sendAtOnce evs')).2 (Client.leave c b body evs evs').2 := by
  unfold leave Client.leave
  cases body.raised with
  | none => exact same_finish evs h _ _ _
  | some x =>
    dsimp only
    split
    · have hs := same_send evs h (.blockFailed b x)
      revert hs
      rcases s.send (.blockFailed b x) (sendAtOnce evs).check (sendAtOnce evs).read (sendAtOnce evs).again
        (sendAtOnce evs).inner with ⟨_ | _, s'⟩ <;>
        rcases (evs.foldl TcpClient.net c).send (.blockFailed b x) with ⟨e', c'⟩ | c' <;> intro hs
      · obtain ⟨rfl, hs⟩ := hs
        exact same_finish evs' hs _ _ _
      · exact hs.elim
      · exact hs.elim
      · exact same_finish evs' hs.2 _ _ _
    · exact same_finish evs h _ _ _

/-! ## Connecting -/

/-- The constructor waits until `_connect` has ended; then it returns with a connection that is up, or raises what
`_connect` raised. -/
theorem C115_connect (n : Nat) (ev : ConnectEv) (early : Bool) (rest : List (Option ConnectEv × Option ConnectEv)) :
    connectLoop false [] (List.replicate n (none, none)) = (.waiting : Connected B T) ∧
    match ev with
    | .connects => ∃ s : FineTcp B T, Alive s ∧ connectLoop false [] (List.replicate n (none, none) ++
        (if early then (some ev, none) else (none, some ev)) :: (none, none) :: rest) = .up s
    | .fails e => connectLoop false [] (List.replicate n (none, none) ++
        (if early then (some ev, none) else (none, some ev)) :: rest) = (.raises e : Connected B T) := by
  constructor
  · induction n with
    | zero => rfl
    | succ n ih => rw [List.replicate_succ]; exact ih
  · induction n with
    | zero =>
      cases ev with
      | connects => cases early <;> exact ⟨⟨[], true, true, [], [], .reading⟩, ⟨rfl, rfl, rfl, rfl⟩, rfl⟩
      | fails e => cases early <;> rfl
    | succ n ih => cases ev <;> exact ih

/-! ## Examples -/

/-- A worker that waits for its second block when the server vanishes: the loop returns, whatever the thread of the IO loop
does after it has cleared the stream. -/
example : ∃ s', processBlocks 0 fresh
    [⟨SendEnv.still, [⟨[], [], [.recv (.sendBlock 1)]⟩], ⟨[], [], []⟩, fun _ => ⟨.enum .processing, none⟩,
        SendEnv.still, SendEnv.still⟩,
      ⟨SendEnv.still, [⟨[], [], vanish⟩, ⟨[], [], []⟩], ⟨[], [], []⟩, fun _ => ⟨.enum .processing, none⟩,
        ⟨vanish, [], [], []⟩, SendEnv.still⟩] = .returned s' ∧
    s'.posted = [.acquire 0, .release 1 (.enum .success), .acquire 0] := ⟨_, rfl, rfl⟩

/-- The second of these turns meets the hypotheses of `C115_ends`. -/
example : Gone (([⟨[], [], vanish⟩, ⟨[], [], []⟩] : List (GetEnv (Fin 2))).dropLast.flatMap GetEnv.all) ∧ Gone vanish :=
  ⟨List.Sublist.refl _, List.Sublist.refl _⟩

/-- A server that tells a worker to leave and acknowledges it: nothing is raised, and `C115_calm_partial` speaks about
such executions. -/
example : ∃ s', enter 0 fresh SendEnv.still [⟨[.recv .requestShutdown], [], []⟩, ⟨[.ack, .go, .go], [], []⟩]
    ⟨[], [], []⟩ = .none s' ∧ s'.posted = [.acquire 0, .disconnect] := ⟨_, rfl, rfl⟩

end Verif.Props
