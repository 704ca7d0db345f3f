import Verif.Model.Client
import Verif.Props.Freezable

/-! # C46, C60, C61: the client -/

namespace Verif

variable {B T : Type}

/-! ## C46: exactly one release -/

/-- The body of the `with` statement went well: it raised nothing and left the status alone or set it to
SUCCESS. -/
def Spec.WentWell (body : BodyEnd) : Prop :=
  body.raised = none ∧ (body.status = .enum .processing ∨ body.status = .enum .success)

instance (body : BodyEnd) : Decidable (Spec.WentWell body) := by unfold Spec.WentWell; infer_instance

/-- What the server should hear about a block: a failure message iff an `Exception` was raised, then one
release. -/
def Spec.report (b : B) (body : BodyEnd) (ok : Prop) [Decidable ok] : List (ClientMsg B T) :=
  (match body.raised with
    | some (.base _) => []
    | some e => [.blockFailed b e]
    | none => []) ++
  [.release b (.enum (if ok then .success else .failed))]

/-- The connection is up. -/
def Spec.Online (c : TcpClient B T) : Prop := c.excs = [] ∧ c.connected = true ∧ c.writable = true

/-- Only messages arrive. -/
def Spec.Quiet (evs : List (NetEv B)) : Prop := ∀ ev ∈ evs, ∃ m, ev = .arrives m

private theorem net_outbox (c : TcpClient B T) : ∀ evs : List (NetEv B), (evs.foldl TcpClient.net c).outbox = c.outbox
  | [] => rfl
  | ev :: evs => by
    rw [List.foldl_cons, net_outbox]
    cases ev <;> unfold TcpClient.net <;> dsimp only
    all_goals split <;> rfl

private theorem up_net {c : TcpClient B T} : ∀ {evs : List (NetEv B)}, Spec.Online c → Spec.Quiet evs →
    Spec.Online (evs.foldl TcpClient.net c)
  | [], h, _ => h
  | ev :: evs, h, hq => by
    rw [List.foldl_cons]
    apply up_net _ (fun e he => hq e (List.mem_cons_of_mem _ he))
    obtain ⟨m, rfl⟩ := hq ev List.mem_cons_self
    unfold TcpClient.net
    dsimp only
    split
    · exact h
    · exact h

private theorem send_up {c : TcpClient B T} (h : Spec.Online c) (m : ClientMsg B T) :
    c.send m = .ok { c with outbox := c.outbox ++ [m] } := by
  unfold TcpClient.send TcpClient.checkErrors
  rw [h.1]
  simp [h.2.1, h.2.2]

private theorem finish_up {c : TcpClient B T} (h : Spec.Online c) (b : B) (st : StatusVal) (pe : Option ClientErr) :
    Client.finish c b st pe = (pe, { c with outbox := c.outbox ++
      [.release b (.enum (if st = .enum .success then .success else .failed))] }) := by
  unfold Client.finish
  dsimp only
  rw [send_up h]
  by_cases hs : st = .enum .success <;> simp [hs]

/-- The body was interrupted after it had set the status to SUCCESS. -/
def Spec.Late (body : BodyEnd) : Prop := (∃ name, body.raised = some (.base name)) ∧ body.status = .enum .success

instance (body : BodyEnd) : Decidable (Spec.Late body) := by
  unfold Spec.Late
  rcases h : body.raised with _ | e
  · exact isFalse (by simp)
  · cases e with
    | base n => exact decidable_of_iff (body.status = .enum .success) (by simp)
    | _ => exact isFalse (by simp)

/-- What exactly the client does, for a connection that stays up: a failure message iff an `Exception` was
raised, then exactly one release, as SUCCESS iff the body went well or was interrupted after setting SUCCESS.
Exceptions are swallowed, other `BaseException`s leave the `with` statement. -/
theorem C46_exact {c : TcpClient B T} (h : Spec.Online c) (b : B) (body : BodyEnd) {evs evs' : List (NetEv B)}
    (hq : Spec.Quiet evs) (hq' : Spec.Quiet evs') :
    (Client.leave c b body evs evs').2.outbox =
      c.outbox ++ Spec.report b body (Spec.WentWell body ∨ Spec.Late body) ∧
    (Client.leave c b body evs evs').1 = body.raised.filter (fun e => !e.isException) ∧
    Spec.Online (Client.leave c b body evs evs').2 := by
  have hu := up_net h hq
  have ho := net_outbox c evs
  unfold Client.leave
  generalize List.foldl TcpClient.net c evs = c1 at hu ho ⊢
  unfold Spec.report Spec.WentWell Spec.Late
  obtain ⟨st, r⟩ := body
  cases r with
  | none =>
    dsimp only
    rw [finish_up hu]
    refine ⟨?_, rfl, hu⟩
    dsimp only
    rw [ho]
    by_cases h1 : st = .enum .processing
    · simp [h1]
    · by_cases h2 : st = .enum .success <;> simp [h1, h2]
  | some e =>
    by_cases he : e.isException = true
    · dsimp only
      rw [if_pos he, send_up hu]
      have hu1 : Spec.Online { c1 with outbox := c1.outbox ++ [ClientMsg.blockFailed b e] } := hu
      have hu2 := up_net hu1 hq'
      have ho2 := net_outbox { c1 with outbox := c1.outbox ++ [ClientMsg.blockFailed b e] } evs'
      dsimp only at ho2 ⊢
      generalize List.foldl TcpClient.net _ evs' = c2 at hu2 ho2 ⊢
      rw [finish_up hu2]
      refine ⟨?_, (by rw [Option.filter, he]; rfl), hu2⟩
      dsimp only
      rw [ho2, ho]
      cases e with
      | base n => cases he
      | _ => simp
    · dsimp only
      rw [if_neg he, finish_up hu]
      refine ⟨?_, (by rw [Option.filter, Bool.eq_false_iff.2 he]; rfl), hu⟩
      dsimp only
      rw [ho]
      cases e with
      | base n => simp
      | _ => exact absurd rfl he

/-- The claim for every body, as stated in English. -/
def C46_statement : Prop :=
  ∀ (B T : Type) (c : TcpClient B T) (b : B) (body : BodyEnd) (evs evs' : List (NetEv B)), Spec.Online c →
    Spec.Quiet evs → Spec.Quiet evs' →
    (Client.leave c b body evs evs').2.outbox = c.outbox ++ Spec.report b body (Spec.WentWell body)

/-- The claim, unless the body is interrupted (`KeyboardInterrupt`, `SystemExit`) after it has set the status to
SUCCESS. -/
theorem C46_release_partial {c : TcpClient B T} (h : Spec.Online c) (b : B) (body : BodyEnd) (hl : ¬Spec.Late body)
    {evs evs' : List (NetEv B)} (hq : Spec.Quiet evs) (hq' : Spec.Quiet evs') :
    (Client.leave c b body evs evs').2.outbox = c.outbox ++ Spec.report b body (Spec.WentWell body) := by
  rw [(C46_exact h b body hq hq').1]
  unfold Spec.report
  simp [hl]

/-- The claim is false: a body that sets the status to SUCCESS and is then interrupted is released as SUCCESS. -/
theorem C46_false : ¬C46_statement := by
  intro hC
  have := hC Nat Nat ⟨[], true, true, [], []⟩ 0 ⟨.enum .success, some (.base "KeyboardInterrupt")⟩ [] []
    ⟨rfl, rfl, rfl⟩ (by intro _ h; cases h) (by intro _ h; cases h)
  exact absurd this (by decide)

private theorem net_down (c : TcpClient B T) (h : c.connected = false ∨ c.writable = false) :
    ∀ evs : List (NetEv B), (evs.foldl TcpClient.net c).connected = false ∨ (evs.foldl TcpClient.net c).writable = false
  | [] => h
  | ev :: evs => by
    rw [List.foldl_cons]
    refine net_down _ ?_ evs
    cases ev <;> unfold TcpClient.net <;> dsimp only
    · split
      · exact h
      · exact h
    · exact Or.inl rfl
    · split
      · exact Or.inl rfl
      · exact h
    · exact Or.inr rfl

private theorem net_consistent (c : TcpClient B T) (h : c.excs ≠ [] → c.connected = false) :
    ∀ evs : List (NetEv B), (evs.foldl TcpClient.net c).excs ≠ [] → (evs.foldl TcpClient.net c).connected = false
  | [] => h
  | ev :: evs => by
    rw [List.foldl_cons]
    refine net_consistent _ ?_ evs
    cases ev <;> unfold TcpClient.net <;> dsimp only
    · split
      · exact h
      · exact h
    · exact fun _ => rfl
    · split
      · exact fun _ => rfl
      · exact h
    · exact h

private theorem send_cases {c : TcpClient B T} (h : c.excs ≠ [] → c.connected = false) (m : ClientMsg B T) :
    (c.send m = .ok { c with outbox := c.outbox ++ [m] }) ∨
      ∃ e c', c.send m = .error (e, c') ∧ c'.outbox = c.outbox ∧ (c'.connected = false ∨ c'.writable = false) := by
  unfold TcpClient.send TcpClient.checkErrors
  cases hx : c.excs with
  | nil =>
    dsimp only
    split
    · rename_i hc; exact Or.inr ⟨_, _, rfl, rfl, Or.inl (by simpa using hc)⟩
    · split
      · rename_i hw; exact Or.inr ⟨_, _, rfl, rfl, Or.inr (by simpa using hw)⟩
      · exact Or.inl rfl
  | cons e r => exact Or.inr ⟨_, _, rfl, rfl, Or.inl (h (by simp [hx]))⟩

private theorem send_down {c : TcpClient B T} (h : c.connected = false ∨ c.writable = false) (m : ClientMsg B T) :
    ∃ e c', c.send m = .error (e, c') ∧ c'.outbox = c.outbox := by
  unfold TcpClient.send TcpClient.checkErrors
  cases hx : c.excs with
  | nil =>
    dsimp only
    split
    · exact ⟨_, _, rfl, rfl⟩
    · rename_i hc
      rw [if_pos]
      · exact ⟨_, _, rfl, rfl⟩
      · rcases h with h | h
        · simp [h] at hc
        · simp [h]
  | cons e r => exact ⟨_, _, rfl, rfl⟩

private theorem finish_cases {c : TcpClient B T} (h : c.excs ≠ [] → c.connected = false) (b : B) (st : StatusVal)
    (pe : Option ClientErr) :
    (Client.finish c b st pe).2.outbox =
      c.outbox ++ [.release b (.enum (if st = .enum .success then .success else .failed))] ∨
    ((Client.finish c b st pe).2.outbox = c.outbox ∧ (Client.finish c b st pe).1 ≠ none) := by
  unfold Client.finish
  dsimp only
  rcases send_cases h (.release b (if st ≠ .enum .success then .enum .failed else st)) with h1 | ⟨e, c', h1, h2, _⟩
  · rw [h1]
    left
    by_cases hs : st = .enum .success <;> simp [hs]
  · rw [h1]
    exact Or.inr ⟨h2, by simp⟩

/-- Whatever happens to the connection while the body runs and afterwards: what is sent is the beginning of what
should be sent, and if something is missing, the `with` statement raises an exception.  (That an error is in the
queue only if the connection is lost holds of a client after connecting, and then always.) -/
theorem C46_lost {c : TcpClient B T} (hc : c.excs ≠ [] → c.connected = false) (b : B) (body : BodyEnd)
    (evs evs' : List (NetEv B)) :
    ∃ missing, (Client.leave c b body evs evs').2.outbox ++ missing =
        c.outbox ++ Spec.report b body (Spec.WentWell body ∨ Spec.Late body) ∧
      (missing ≠ [] → (Client.leave c b body evs evs').1 ≠ none) := by
  have hu := net_consistent c hc evs
  have ho := net_outbox c evs
  unfold Client.leave
  generalize List.foldl TcpClient.net c evs = c1 at hu ho ⊢
  unfold Spec.report Spec.WentWell Spec.Late
  obtain ⟨st, r⟩ := body
  cases r with
  | none =>
    dsimp only
    rcases finish_cases hu b (if st = .enum .processing then .enum .success else st) none with h1 | ⟨h1, h2⟩
    · refine ⟨[], ?_, by simp⟩
      rw [h1, ho]
      by_cases h1 : st = .enum .processing
      · simp [h1]
      · by_cases h2 : st = .enum .success <;> simp [h1, h2]
    · exact ⟨_, by rw [h1, ho], fun _ => h2⟩
  | some e =>
    by_cases he : e.isException = true
    · dsimp only
      rw [if_pos he]
      have hrep : ∀ x : List (ClientMsg B T), (match some e with
          | some (.base _) => []
          | some e => [ClientMsg.blockFailed (T := T) b e]
          | none => []) ++ x = [.blockFailed b e] ++ x := by
        intro x
        cases e with
        | base n => cases he
        | _ => rfl
      rw [hrep, if_neg (by
        rintro (⟨h1, _⟩ | ⟨⟨n, h1⟩, _⟩)
        · cases h1
        · cases h1; cases he)]
      rcases send_cases hu (.blockFailed b e) with h1 | ⟨e', c', h1, h2, h3⟩
      · rw [h1]
        dsimp only
        have hu2 := net_consistent { c1 with outbox := c1.outbox ++ [ClientMsg.blockFailed b e] } hu evs'
        have ho2 := net_outbox { c1 with outbox := c1.outbox ++ [ClientMsg.blockFailed b e] } evs'
        dsimp only at ho2
        generalize List.foldl TcpClient.net _ evs' = c2 at hu2 ho2 ⊢
        rcases finish_cases hu2 b (.enum .failed) none with h4 | ⟨h4, h5⟩
        · exact ⟨[], by rw [h4, ho2, ho]; simp, by simp⟩
        · exact ⟨_, by rw [h4, ho2, ho, List.append_assoc], fun _ => h5⟩
      · rw [h1]
        dsimp only
        have h4 := net_down c' h3 evs'
        have h5 := net_outbox c' evs'
        generalize List.foldl TcpClient.net c' evs' = c2 at h4 h5 ⊢
        obtain ⟨e6, c6, h6, h7⟩ := send_down h4
          (.release b (if StatusVal.enum BlockStatus.failed ≠ .enum .success then .enum .failed else .enum .failed))
        have hf : Client.finish c2 b (.enum .failed) (some e') = (some e6, c6) := by
          unfold Client.finish
          dsimp only
          rw [h6]
        rw [hf]
        refine ⟨_, by rw [h7, h5, h2, ho], by simp⟩
    · dsimp only
      rw [if_neg he]
      rcases finish_cases hu b st (some e) with h1 | ⟨h1, h2⟩
      · refine ⟨[], ?_, by simp⟩
        rw [h1, ho]
        cases e with
        | base n => simp
        | _ => exact absurd rfl he
      · exact ⟨_, by rw [h1, ho], fun _ => h2⟩

/-- A worker loop: `while True: with client.acquire_block() as block: ...`, as long as blocks come and nothing
is raised.  The list contains the blocks and how the body ended for each. -/
inductive Spec.Rounds (t : T) (c : TcpClient B T) : List (B × BodyEnd) → TcpClient B T → Prop where
  | nil : Spec.Rounds t c [] c
  | snoc {l : List (B × BodyEnd)} {c1 c2 c3 : TcpClient B T} {b : B} {body : BodyEnd}
      {envs : List (List (NetEv B))} {evs0 evs evs' : List (NetEv B)} : Spec.Rounds t c l c1 →
      Client.enter t (evs0.foldl TcpClient.net c1) envs = .block b c2 → Client.leave c2 b body evs evs' = (none, c3) →
      Spec.Rounds t c (l ++ [(b, body)]) c3

private theorem getMessage_outbox {c c' : TcpClient B T} {m : Option (ServerMsg B)} (h : c.getMessage = .ok (m, c')) :
    c'.outbox = c.outbox ∧ c'.excs = c.excs ∧ c'.connected = c.connected := by
  unfold TcpClient.getMessage at h
  split at h
  · cases h
  · split at h
    · cases h
    · split at h
      · cases h; exact ⟨rfl, rfl, rfl⟩
      · cases h; exact ⟨rfl, rfl, rfl⟩

private theorem await_block : ∀ (envs : List (List (NetEv B))) (c : TcpClient B T) {b : B} {c' : TcpClient B T},
    (c.excs ≠ [] → c.connected = false) → Client.await c envs = .block b c' →
    c'.outbox = c.outbox ∧ (c'.excs ≠ [] → c'.connected = false)
  | [], c, b, c', _, h => by unfold Client.await at h; cases h
  | evs :: envs, c, b, c', hc, h => by
    unfold Client.await at h
    have h0 := net_outbox c evs
    have h1 := net_consistent c hc evs
    generalize List.foldl TcpClient.net c evs = c1 at h h0 h1
    split at h
    · cases h
    · cases h
    · rename_i c2 hg
      obtain ⟨g1, g2, g3⟩ := getMessage_outbox hg
      obtain ⟨i1, i2⟩ := await_block envs c2 (by rw [g2, g3]; exact h1) h
      exact ⟨by rw [i1, g1, h0], i2⟩
    · rename_i b' c2 hg
      cases h
      obtain ⟨g1, g2, g3⟩ := getMessage_outbox hg
      exact ⟨by rw [g1, h0], by rw [g2, g3]; exact h1⟩
    · split at h
      · cases h
      · cases h
      · cases h
    · cases h

private theorem leave_consistent {c : TcpClient B T} (b : B) (body : BodyEnd) (evs evs' : List (NetEv B))
    (hc : c.excs ≠ [] → c.connected = false) :
    (Client.leave c b body evs evs').2.excs ≠ [] → (Client.leave c b body evs evs').2.connected = false := by
  have hsend : ∀ (c : TcpClient B T) (m : ClientMsg B T), (c.excs ≠ [] → c.connected = false) →
      (∀ c', c.send m = .ok c' → (c'.excs ≠ [] → c'.connected = false)) ∧
      (∀ e c', c.send m = .error (e, c') → (c'.excs ≠ [] → c'.connected = false)) := by
    intro c m hc
    unfold TcpClient.send TcpClient.checkErrors
    cases hx : c.excs with
    | nil =>
      dsimp only
      refine ⟨fun c' h => ?_, fun e c' h => ?_⟩
      · split at h
        · cases h
        · split at h
          · cases h
          · cases h; simp
      · split at h
        · cases h; exact hc
        · split at h
          · cases h; exact hc
          · cases h
    | cons e r =>
      refine ⟨(fun c' h => by cases h), (fun e c' h => ?_)⟩
      cases h
      exact fun _ => hc (by simp [hx])
  have hfin : ∀ (c : TcpClient B T) (st : StatusVal) (pe : Option ClientErr), (c.excs ≠ [] → c.connected = false) →
      ((Client.finish c b st pe).2.excs ≠ [] → (Client.finish c b st pe).2.connected = false) := by
    intro c st pe hc
    unfold Client.finish
    dsimp only
    split
    · rename_i e c' h; exact (hsend _ _ hc).2 _ _ h
    · rename_i c' h; exact (hsend _ _ hc).1 _ h
  unfold Client.leave
  have h1 := net_consistent c hc evs
  split
  · exact hfin _ _ _ h1
  · split
    · split
      · rename_i h; exact hfin _ _ _ (net_consistent _ ((hsend _ _ h1).2 _ _ h) evs')
      · rename_i h; exact hfin _ _ _ (net_consistent _ ((hsend _ _ h1).1 _ h) evs')
    · exact hfin _ _ _ h1

/-- When there is no block left (`acquire_block` yields `None`), nothing is sent for the body, and its exceptions are not
swallowed. -/
theorem C46_none (c : TcpClient B T) (raised : Option ClientErr) :
    (Client.leaveNone c raised).1 = raised ∧ (Client.leaveNone c raised).2.outbox = c.outbox := ⟨rfl, rfl⟩

/-- Over a whole worker loop that has not raised anything, whatever the connection did: the client has sent one
request and one complete report per block, in order. -/
theorem C46_rounds {t : T} {c c' : TcpClient B T} {l : List (B × BodyEnd)}
    (hc : c.excs ≠ [] → c.connected = false) (h : Spec.Rounds t c l c') :
    c'.outbox = c.outbox ++ l.flatMap (fun x => .acquire t :: Spec.report x.1 x.2 (Spec.WentWell x.2 ∨ Spec.Late x.2)) := by
  suffices hs : c'.outbox = c.outbox ++
      l.flatMap (fun x => .acquire t :: Spec.report x.1 x.2 (Spec.WentWell x.2 ∨ Spec.Late x.2)) ∧
      (c'.excs ≠ [] → c'.connected = false) from hs.1
  induction h with
  | nil => exact ⟨by simp, hc⟩
  | @snoc l c1 c2 c3 b body envs evs0 evs evs' _ he hl ih =>
    have h0 := net_outbox c1 evs0
    have h1 := net_consistent c1 ih.2 evs0
    unfold Client.enter at he
    generalize List.foldl TcpClient.net c1 evs0 = c4 at he h0 h1
    rcases send_cases h1 (.acquire t) with hs | ⟨e, c5, hs, _⟩
    · rw [hs] at he
      obtain ⟨a1, a2⟩ := await_block envs { c4 with outbox := c4.outbox ++ [.acquire t] } h1 he
      obtain ⟨missing, m1, m2⟩ := C46_lost a2 b body evs evs'
      have hm : missing = [] := by
        by_contra hne
        exact m2 hne (by rw [hl])
      rw [hl, hm, a1] at m1
      have hcons := leave_consistent b body evs evs' a2
      rw [hl] at hcons
      refine ⟨?_, hcons⟩
      rw [List.append_nil] at m1
      dsimp only at m1
      rw [m1, h0, ih.1]
      simp
    · rw [hs] at he
      cases he

/-- A body that fails with an exception, on a connection that is up. -/
example : Client.leave (B := Nat) (T := Nat) ⟨[], true, true, [], []⟩ 5 ⟨.enum .processing, some (.exception "E")⟩ [] [] =
    (none, ⟨[], true, true, [], [.blockFailed 5 (.exception "E"), .release 5 (.enum .failed)]⟩) := by decide

/-- Two rounds: a success and a failure. -/
example : Spec.Rounds (B := Nat) 7 ⟨[], true, true, [], []⟩
    [(1, ⟨.enum .processing, none⟩), (2, ⟨.other "x", none⟩)]
    ⟨[], true, true, [], [.acquire 7, .release 1 (.enum .success), .acquire 7, .release 2 (.enum .failed)]⟩ :=
  .snoc (l := [(1, ⟨.enum .processing, none⟩)]) (envs := [[], [.arrives (.sendBlock 2)]]) (evs0 := []) (evs := [])
    (evs' := [])
    (.snoc (l := []) (envs := [[.arrives (.sendBlock 1)]]) (evs0 := []) (evs := []) (evs' := []) .nil rfl rfl) rfl rfl

/-! ## C60: the documented usage -/

open PyObj in
/-- The body of the loop in the documentation of `Client` (`client.py` 29-40), for user code that does not raise:
it processes the block and ends with `block.state = BlockStatus.SUCCESS`.  `name` is the name of the attribute that
is assigned, `success` the value. -/
def docBody {V : Type} (P : PyVals V) (block : PyObj V) (name : String) (success : V) : BodyEnd :=
  match block.set P name success with
  | .error _ => ⟨.enum .processing, some (.exception "TypeError")⟩
  | .ok _ => ⟨if name = "status" then .enum .success else .enum .processing, none⟩

/-- The claim: a loop that sets the attribute `name` as in the documentation reports processed blocks as SUCCESS,
for every block whose class does not define `name` otherwise. -/
def C60_statement (name : String) : Prop :=
  ∀ (V : Type) (P : PyVals V) (methods : String → Option V) (v : PyObj.BlockVals V) (block : PyObj V) (success : V)
    (B T : Type) (c : TcpClient B T) (b : B), methods name = none →
    PyObj.blockInit P v (PyObj.blockNew P methods) = .ok block → Spec.Online c →
    (Client.leave c b (docBody P block name success) [] []).2.outbox = c.outbox ++ [.release b (.enum .success)]

/-- What the documented loop does: every block, although it was processed, is reported as failed. -/
theorem C60_documented_fails {V : Type} (P : PyVals V) (methods : String → Option V) (v : PyObj.BlockVals V)
    (block : PyObj V) (success : V) {c : TcpClient B T} (b : B) (hm : methods "state" = none)
    (hb : PyObj.blockInit P v (PyObj.blockNew P methods) = .ok block) (hc : Spec.Online c) :
    (Client.leave c b (docBody P block "state" success) [] []).2.outbox =
      c.outbox ++ [.blockFailed b (.exception "TypeError"), .release b (.enum .failed)] := by
  obtain ⟨o, ho, hf, hattr, _⟩ := C51_block P methods v
  rw [hb] at ho
  cases ho
  have hn : block.has "state" = false := by
    rw [Bool.eq_false_iff]
    intro h
    rcases (hattr "state").1 h with h1 | h1
    · exact absurd h1 (by decide)
    · rw [hm] at h1; cases h1
  have hs : docBody P block "state" success = ⟨.enum .processing, some (.exception "TypeError")⟩ := by
    unfold docBody
    rw [(C51_assign P block hf "state" success).2 hn]
  rw [hs, (C46_exact hc b _ (by intro _ h; cases h) (by intro _ h; cases h)).1]
  rfl

/-- The claim is false of the loop in the documentation. -/
theorem C60_false : ¬C60_statement "state" := by
  intro hC
  have hb : ∃ block, PyObj.blockInit boolVals ⟨true, true, true, true, true, true⟩
      (PyObj.blockNew boolVals (fun _ => none)) = .ok block := ⟨_, (C51_block _ _ _).choose_spec.1⟩
  obtain ⟨block, hb⟩ := hb
  have h1 := hC Bool boolVals (fun _ => none) ⟨true, true, true, true, true, true⟩ block true Nat Nat
    ⟨[], true, true, [], []⟩ 0 rfl hb ⟨rfl, rfl, rfl⟩
  rw [C60_documented_fails boolVals (fun _ => none) _ block true 0 rfl hb ⟨rfl, rfl, rfl⟩] at h1
  cases h1

/-- It holds if the loop sets `status` (or nothing) instead. -/
theorem C60_status_partial : C60_statement "status" := by
  intro V P methods v block success B T c b _ hb hc
  obtain ⟨o', ho', _⟩ := C51_daisy_assignments P methods v block hb [] (by simp) "status" (by simp) success
  have hs : docBody P block "status" success = ⟨.enum .success, none⟩ := by
    unfold docBody
    change block.set P "status" success = _ at ho'
    rw [ho']
    rfl
  rw [hs, (C46_exact hc b _ (by intro _ h; cases h) (by intro _ h; cases h)).1]
  rfl

/-! ## C61: a client whose server is gone -/

/-- Events of a server that keeps to the protocol and may vanish at any time. -/
def Spec.Vanishing (evs : List (NetEv B)) : Prop :=
  ∀ ev ∈ evs, ev = .fails .streamClosed ∨ ev = .arrives .requestShutdown ∨ ∃ b, ev = .arrives (.sendBlock b)

/-- The claim: `acquire_block` does not raise if the server vanishes, whenever that happens. -/
def C61_statement : Prop :=
  ∀ (B T : Type) (t : T) (c : TcpClient B T) (evs0 : List (NetEv B)) (envs : List (List (NetEv B))) (e : ClientErr)
    (c' : TcpClient B T), Spec.Online c → Spec.Vanishing evs0 → (∀ evs ∈ envs, Spec.Vanishing evs) →
    Client.enter t (evs0.foldl TcpClient.net c) envs ≠ .raises e c'

/-- If the server vanishes between two blocks, the next `acquire_block` raises `StreamClosedError`. -/
theorem C61_false : ¬C61_statement := by
  intro hC
  exact hC Nat Nat 0 ⟨[], true, true, [], []⟩ [.fails .streamClosed] [] .streamClosed _ ⟨rfl, rfl, rfl⟩
    (by intro ev h; rw [List.mem_singleton] at h; exact Or.inl h) (by intro _ h; cases h) rfl

/-- The state of a client while it waits: up, or the server has vanished and that has not been noticed. -/
private def WaitOK (c : TcpClient B T) : Prop :=
  c.writable = true ∧ (∀ m ∈ c.inbox, m ≠ .other) ∧
    ((c.connected = true ∧ c.excs = []) ∨ (c.connected = false ∧ c.excs = [.streamClosed]))

private theorem waitOK_net (c : TcpClient B T) (h : WaitOK c) : ∀ evs : List (NetEv B), Spec.Vanishing evs →
    WaitOK (evs.foldl TcpClient.net c)
  | [], _ => h
  | ev :: evs, hv => by
    rw [List.foldl_cons]
    refine waitOK_net _ ?_ evs (fun e he => hv e (List.mem_cons_of_mem _ he))
    obtain ⟨h1, h2, h3⟩ := h
    have harr : ∀ m : ServerMsg B, m ≠ .other → WaitOK (c.net (.arrives m)) := by
      intro m hm
      unfold TcpClient.net
      dsimp only
      split
      · refine ⟨h1, fun x hx => ?_, h3⟩
        rcases List.mem_append.1 hx with hx | hx
        · exact h2 x hx
        · rw [List.mem_singleton] at hx; rw [hx]; exact hm
      · exact ⟨h1, h2, h3⟩
    rcases hv ev List.mem_cons_self with rfl | rfl | ⟨b, rfl⟩
    · unfold TcpClient.net
      dsimp only
      split
      · rename_i hc
        rcases h3 with h3 | h3
        · exact ⟨h1, h2, Or.inr ⟨rfl, by simp [h3.2]⟩⟩
        · rw [h3.1] at hc; cases hc
      · exact ⟨h1, h2, h3⟩
    · exact harr _ (by simp)
    · exact harr _ (by simp)

private theorem await_vanishing : ∀ (envs : List (List (NetEv B))) (c : TcpClient B T), WaitOK c →
    (∀ evs ∈ envs, Spec.Vanishing evs) → ∀ e c', Client.await c envs ≠ .raises e c'
  | [], _, _, _, e, c', h => by unfold Client.await at h; cases h
  | evs :: envs, c, hw, hv, e, c', h => by
    unfold Client.await at h
    have hw1 := waitOK_net c hw evs (hv _ List.mem_cons_self)
    generalize List.foldl TcpClient.net c evs = c1 at h hw1
    obtain ⟨h1, h2, h3⟩ := hw1
    rcases h3 with ⟨h3, h4⟩ | ⟨h3, h4⟩
    · unfold TcpClient.getMessage TcpClient.checkErrors at h
      rw [h4] at h
      simp only [h3, Bool.not_true, Bool.false_eq_true, if_false] at h
      cases hi : c1.inbox with
      | nil =>
        rw [hi] at h
        exact await_vanishing envs c1 ⟨h1, h2, Or.inl ⟨h3, h4⟩⟩
          (fun evs he => hv evs (List.mem_cons_of_mem _ he)) e c' h
      | cons m r =>
        rw [hi] at h
        cases m with
        | sendBlock b => cases h
        | other => exact h2 .other (by rw [hi]; exact List.mem_cons_self) rfl
        | requestShutdown =>
          dsimp only at h
          unfold TcpClient.disconnect at h
          simp only [h1, Bool.not_true, Bool.false_eq_true, if_false] at h
          generalize TcpClient.awaitDisconnect _ envs = r5 at h
          cases r5 <;> cases h
    · unfold TcpClient.getMessage TcpClient.checkErrors at h
      rw [h4] at h
      cases h

/-- If the connection is up when `acquire_block` is called, it does not raise, whenever the server vanishes. -/
theorem C61_waiting_partial (t : T) {c : TcpClient B T} (hc : Spec.Online c) (hi : ∀ m ∈ c.inbox, m ≠ .other)
    {envs : List (List (NetEv B))} (hv : ∀ evs ∈ envs, Spec.Vanishing evs) (e : ClientErr) (c' : TcpClient B T) :
    Client.enter t c envs ≠ .raises e c' := by
  unfold Client.enter
  rw [send_up hc]
  exact await_vanishing envs { c with outbox := c.outbox ++ [.acquire t] }
    ⟨hc.2.2, hi, Or.inl ⟨hc.2.1, hc.1⟩⟩ hv e c'

/-- If it vanishes while the client waits, the body is entered with `None`. -/
theorem C61_none (t : T) {c : TcpClient B T} (hc : Spec.Online c) (hi : c.inbox = []) (n : Nat)
    (envs : List (List (NetEv B))) :
    ∃ c', Client.enter t c (List.replicate n [] ++ [.fails .streamClosed] :: envs) = .none c' := by
  unfold Client.enter
  rw [send_up hc]
  have key : ∀ (n : Nat) (c : TcpClient B T), Spec.Online c → c.inbox = [] →
      ∃ c', Client.await c (List.replicate n [] ++ [.fails .streamClosed] :: envs) = .none c' := by
    intro n
    induction n with
    | zero =>
      intro c hc hi
      rw [List.replicate_zero, List.nil_append]
      unfold Client.await
      simp [TcpClient.net, TcpClient.getMessage, TcpClient.checkErrors, hc.1, hc.2.1]
    | succ n ih =>
      intro c hc hi
      rw [List.replicate_succ, List.cons_append]
      unfold Client.await
      simp only [List.foldl_nil]
      have : c.getMessage = .ok (none, c) := by
        simp [TcpClient.getMessage, TcpClient.checkErrors, hc.1, hc.2.1, hi]
      rw [this]
      exact ih c hc hi
  exact key n { c with outbox := c.outbox ++ [.acquire t] } hc hi

/-- The server sends a block, then vanishes while the client waits for the next. -/
example : Client.enter (B := Nat) 7 ⟨[], true, true, [], []⟩ [[], [.fails .streamClosed]] =
    .none ⟨[], false, true, [], [.acquire 7]⟩ := by decide

end Verif
