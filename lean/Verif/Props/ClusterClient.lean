import Verif.Model.Cluster

/-! # C91: the steps of a worker process are those of `Client.acquire_block`

`Model/Cluster` cuts `acquire_block` into steps, `Model/Client` has it in one piece (`Client.enter` up to the
`yield`, `Client.leave` after it).  Here both are compared, for every behaviour of the network. -/

set_option linter.unusedSectionVars false

namespace Verif

variable {N T : Type}

namespace Spec

/-- What the network does to a connection between two steps of the process. -/
def Conn.netOn (k : Conn N T) (evs : List (NetEv N)) : Conn N T :=
  { k with tcp := evs.foldl TcpClient.net k.tcp }

/-- The process waits for the server. -/
def Phase.blocked : Phase N → Bool
  | .waiting => true
  | .leaving => true
  | _ => false

/-- Network activity and steps of the process in turn, as long as it waits for the server. -/
def Conn.runWait (body : BodyEnd) : Conn N T → List (List (NetEv N)) → Conn N T
  | k, [] => k
  | k, evs :: envs => if Phase.blocked k.phase then runWait body ((Conn.netOn k evs).step body) envs else k

/-- Network activity and a step, up to twice: the end of the process function and, if `BlockFailed` was sent, the
`finally` clause. -/
def Conn.runLeave (body : BodyEnd) (k : Conn N T) (evs evs' : List (NetEv N)) : Conn N T :=
  let k1 := (Conn.netOn k evs).step body
  match k1.phase with
  | .failing _ _ => (Conn.netOn k1 evs').step body
  | _ => k1

/-- How the `with` statement of `_process_blocks` looks like from outside (`task.py` 186-189): nothing is raised and
there is a block — the process function is running; there is none — the process has returned; an exception — it
has left `_process_blocks`. -/
def Conn.Matches (k k' : Conn N T) : Entered N T → Prop
  | .raises e c => k' = { k with tcp := c, phase := .ended (some e) }
  | .none c => k' = { k with tcp := c, phase := .ended none }
  | .block b c => k' = { k with tcp := c, phase := .working b }
  | .waiting => ∃ c p, Phase.blocked p = true ∧ k' = { k with tcp := c, phase := p }

end Spec

open Spec

theorem runWait_done (body : BodyEnd) {k : Conn N T} (h : Phase.blocked k.phase = false)
    (envs : List (List (NetEv N))) : Conn.runWait body k envs = k := by
  cases envs with
  | nil => rfl
  | cons evs envs => unfold Conn.runWait; rw [if_neg (by rw [h]; simp)]

theorem runWait_leaving (body : BodyEnd) (envs : List (List (NetEv N))) : ∀ (k : Conn N T) (c : TcpClient N T),
    c.connected = true →
    match c.awaitDisconnect envs with
    | some c' => Conn.runWait body { k with tcp := c, phase := .leaving } envs =
        { k with tcp := c', phase := .ended none }
    | none => ∃ c', Conn.runWait body { k with tcp := c, phase := .leaving } envs =
        { k with tcp := c', phase := .leaving } := by
  induction envs with
  | nil =>
    intro k c hc
    unfold TcpClient.awaitDisconnect
    rw [hc]
    exact ⟨c, rfl⟩
  | cons evs envs ih =>
    intro k c hc
    have e : Conn.runWait body { k with tcp := c, phase := .leaving } (evs :: envs) =
        Conn.runWait body ((Conn.netOn { k with tcp := c, phase := .leaving } evs).step body) envs := rfl
    rw [e]
    unfold TcpClient.awaitDisconnect
    rw [if_pos hc]
    cases hc' : (evs.foldl TcpClient.net c).connected with
    | true =>
      have e1 : (Conn.netOn { k with tcp := c, phase := .leaving } evs).step body =
          { k with tcp := evs.foldl TcpClient.net c, phase := .leaving } := by
        simp only [Conn.step, Conn.netOn, hc', if_true]
      rw [e1]
      exact ih k _ hc'
    | false =>
      have e1 : (Conn.netOn { k with tcp := c, phase := .leaving } evs).step body =
          { k with tcp := evs.foldl TcpClient.net c, phase := .ended none } := by
        simp [Conn.step, Conn.netOn, hc']
      rw [e1, runWait_done body rfl]
      cases envs <;> simp [TcpClient.awaitDisconnect, hc']

theorem getMessage_connected {c c' : TcpClient N T} {m : Option (ServerMsg N)}
    (h : c.getMessage = .ok (m, c')) : c'.connected = true := by
  unfold TcpClient.getMessage at h
  cases hx : c.checkErrors with
  | error x => rw [hx] at h; cases h
  | ok u =>
    rw [hx] at h
    cases hc : c.connected with
    | false => rw [hc] at h; cases h
    | true =>
      rw [hc] at h
      cases hi : c.inbox with
      | nil => rw [hi] at h; cases h; exact hc
      | cons a r => rw [hi] at h; cases h; rfl

theorem runWait_waiting (body : BodyEnd) (envs : List (List (NetEv N))) : ∀ (k : Conn N T) (c : TcpClient N T),
    Conn.Matches k (Conn.runWait body { k with tcp := c, phase := .waiting } envs) (Client.await c envs) := by
  induction envs with
  | nil => intro k c; exact ⟨c, .waiting, rfl, rfl⟩
  | cons evs envs ih =>
    intro k c
    have e : Conn.runWait body { k with tcp := c, phase := .waiting } (evs :: envs) =
        Conn.runWait body (Conn.step { k with tcp := evs.foldl TcpClient.net c, phase := .waiting } body) envs := rfl
    rw [e]
    unfold Client.await Conn.step
    cases hm : (evs.foldl TcpClient.net c).getMessage with
    | error x =>
      obtain ⟨e, c'⟩ := x
      cases e <;> (dsimp only; rw [runWait_done body rfl]; rfl)
    | ok x =>
      obtain ⟨m, c'⟩ := x
      cases m with
      | none => exact ih k c'
      | some m =>
        cases m with
        | sendBlock b => dsimp only; rw [runWait_done body rfl]; rfl
        | other => dsimp only; rw [runWait_done body rfl]; rfl
        | requestShutdown =>
          have hc := getMessage_connected hm
          obtain ⟨ex, co, wr, inb, outb⟩ := c'
          dsimp only at hc
          subst hc
          cases wr with
          | false =>
            rw [show Conn.runWait body _ envs = _ from runWait_done body rfl envs]
            rfl
          | true =>
            have hl := runWait_leaving body envs k ⟨ex, true, true, inb, outb ++ [.disconnect]⟩ rfl
            simp only [TcpClient.disconnect, Bool.not_true, Bool.false_eq_true, if_false]
            cases hd : TcpClient.awaitDisconnect ⟨ex, true, true, inb, outb ++ [.disconnect]⟩ envs with
            | some c'' => rw [hd] at hl; exact hl
            | none =>
              rw [hd] at hl
              obtain ⟨c'', h2⟩ := hl
              exact ⟨c'', .leaving, rfl, h2⟩

/-- C91: asking for a block, waiting for the answer and saying goodbye are what `acquire_block` does up to the `yield`,
whatever the network does in the meantime. -/
theorem C91_enter (k : Conn N T) (hk : k.phase = .idle) (body : BodyEnd) (envs : List (List (NetEv N))) :
    Conn.Matches k (Conn.runWait body (k.step body) envs) (Client.enter k.task k.tcp envs) := by
  unfold Client.enter Conn.step
  rw [hk]
  cases hs : k.tcp.send (.acquire k.task) with
  | error x => dsimp only; rw [runWait_done body rfl]; rfl
  | ok c => exact runWait_waiting body envs k c

/-- C91: the end of the process function and giving the block back are what `acquire_block` does after the `yield`; an
exception that leaves the `with` statement ends the process, otherwise it goes on with its loop. -/
theorem C91_leave (k : Conn N T) {b : N} (hk : k.phase = .working b) (body : BodyEnd) (evs evs' : List (NetEv N)) :
    Conn.runLeave body k evs evs' =
      { k with
        tcp := (Client.leave k.tcp b body evs evs').2
        phase := match (Client.leave k.tcp b body evs evs').1 with
          | none => .idle
          | some e => .ended (some e) } := by
  have hex : ∀ (k : Conn N T) (r : Option ClientErr × TcpClient N T), k.exits r = { k with
      tcp := r.2, phase := match r.1 with | none => .idle | some e => .ended (some e) } := by
    intro k r
    unfold Conn.exits
    cases r.1 <;> rfl
  have hph : ∀ (k : Conn N T) (r : Option ClientErr × TcpClient N T), ∀ b p, (k.exits r).phase ≠ .failing b p := by
    intro k r b p
    rw [hex]
    dsimp only
    split <;> exact fun h => by cases h
  unfold Conn.runLeave
  have hp : (Conn.netOn k evs).phase = .working b := hk
  cases hr : body.raised with
  | none =>
    have e1 : (Conn.netOn k evs).step body = (Conn.netOn k evs).exits (Client.finish (evs.foldl TcpClient.net k.tcp) b
        (if body.status = .enum .processing then .enum .success else body.status) none) := by
      unfold Conn.step
      rw [hp]
      dsimp only
      rw [hr]
      rfl
    have e2 : Client.leave k.tcp b body evs evs' = Client.finish (evs.foldl TcpClient.net k.tcp) b
        (if body.status = .enum .processing then .enum .success else body.status) none := by
      unfold Client.leave
      rw [hr]
    rw [e2]
    dsimp only
    split
    · rename_i b' p' h; rw [e1] at h; exact absurd h (hph _ _ _ _)
    · rw [e1, hex]; rfl
  | some e =>
    cases he : e.isException with
    | false =>
      have e1 : (Conn.netOn k evs).step body = (Conn.netOn k evs).exits (Client.finish (evs.foldl TcpClient.net k.tcp)
          b body.status (some e)) := by
        unfold Conn.step
        rw [hp]
        dsimp only
        rw [hr]
        dsimp only
        rw [if_neg (by rw [he]; simp)]
        rfl
      have e2 : Client.leave k.tcp b body evs evs' = Client.finish (evs.foldl TcpClient.net k.tcp) b body.status
          (some e) := by
        unfold Client.leave
        rw [hr]
        dsimp only
        rw [if_neg (by rw [he]; simp)]
      rw [e2]
      dsimp only
      split
      · rename_i b' p' h; rw [e1] at h; exact absurd h (hph _ _ _ _)
      · rw [e1, hex]; rfl
    | true =>
      cases hsnd : (evs.foldl TcpClient.net k.tcp).send (.blockFailed b e) with
      | error x =>
        obtain ⟨e', c'⟩ := x
        have e1 : (Conn.netOn k evs).step body = { k with tcp := c', phase := .failing b (some e') } := by
          unfold Conn.step
          rw [hp]
          dsimp only
          rw [hr]
          dsimp only
          rw [if_pos he]
          have : (Conn.netOn k evs).tcp = evs.foldl TcpClient.net k.tcp := rfl
          rw [this, hsnd]
          rfl
        have e2 : Client.leave k.tcp b body evs evs' = Client.finish (evs'.foldl TcpClient.net c') b (.enum .failed)
            (some e') := by
          unfold Client.leave
          rw [hr]
          dsimp only
          rw [if_pos he, hsnd]
        rw [e1, e2]
        dsimp only
        exact hex _ _
      | ok c' =>
        have e1 : (Conn.netOn k evs).step body = { k with tcp := c', phase := .failing b none } := by
          unfold Conn.step
          rw [hp]
          dsimp only
          rw [hr]
          dsimp only
          rw [if_pos he]
          have : (Conn.netOn k evs).tcp = evs.foldl TcpClient.net k.tcp := rfl
          rw [this, hsnd]
          rfl
        have e2 : Client.leave k.tcp b body evs evs' = Client.finish (evs'.foldl TcpClient.net c') b (.enum .failed)
            none := by
          unfold Client.leave
          rw [hr]
          dsimp only
          rw [if_pos he, hsnd]
        rw [e1, e2]
        dsimp only
        exact hex _ _

/-- A client asks, the connection is lost while it waits: the process ends without an exception. -/
example : (Conn.runWait ⟨.enum .success, none⟩ ((Conn.new (N := Nat) 3 1).step ⟨.enum .success, none⟩)
      [[], [.fails .streamClosed]]).phase = .ended none ∧
    Client.enter 3 (Conn.new (N := Nat) 3 1).tcp [[], [.fails .streamClosed]] =
      .none ⟨[], false, true, [], [.acquire 3]⟩ := by
  decide

/-- A connection with a block, after the answer of the server. -/
def Ex.connWork : Conn Nat Nat := Conn.runWait ⟨.enum .success, none⟩ ((Conn.new 3 1).step ⟨.enum .success, none⟩)
  [[.arrives (.sendBlock 5)]]

/-- The process function raises an `Exception`. -/
def Ex.connBody : BodyEnd := ⟨.enum .processing, some (.exception "ValueError")⟩

/-- A client asks and gets a block; the process function raises an `Exception`: two messages are sent and the loop goes
on. -/
example : Ex.connWork.phase = .working 5 ∧ (Conn.runLeave Ex.connBody Ex.connWork [] []).phase = .idle ∧
    (Conn.runLeave Ex.connBody Ex.connWork [] []).tcp.outbox =
      [.acquire 3, .blockFailed 5 (.exception "ValueError"), .release 5 (.enum .failed)] := by
  decide

end Verif
