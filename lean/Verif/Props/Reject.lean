import Verif.Props.ServerHold
import Verif.Props.Client

/-! # C69: messages that the server rejects -/

namespace Verif

open Spec

variable {N T K S : Type} [DecidableEq N] [DecidableEq T] [DecidableEq K] [DecidableEq S]
  {g : DGraph N T K} {cfg : SConf T} {σ : Server N T K S} {ks : List (Server.Tick N T S)}

/-- C69: the scheduler does not take back a block that is neither SUCCESS nor FAILED: `release_block` raises
`RuntimeError`, the block is not dropped silently. -/
theorem C69_scheduler {tr : List (Ev N)} {st : Sched N T K} (hg : g.OK) (h : Run g tr st) {n : N} (hn : Held tr n)
    {status : BlockStatus} (h1 : status ≠ .success) (h2 : status ≠ .failed) (pick : Nat → Finset N → N) :
    st.releaseBlock g pick n status = .error .runtimeError := by
  obtain ⟨st', e, _⟩ := (h.inv hg).release_good hg hn pick
  unfold Sched.releaseBlock at e ⊢
  cases hr : st.removeFromProcessing g n with
  | error x => rw [hr] at e; cases e
  | ok st1 =>
    cases status with
    | success => exact absurd rfl h1
    | failed => exact absurd rfl h2
    | _ => rfl

/-- What is wrong with a message: the client that has the block returns it with a status that does not say how the
work ended, an exception that is not about a block, or a message of unknown type. -/
inductive Spec.Rejected (out : List (Out N T S)) (s : S) : Msg N T → PyErr → Prop where
  | release {n : N} {status : BlockStatus} : holder out n = some s → status ≠ .success → status ≠ .failed →
      Rejected out s (.release n status) .runtimeError
  | exception : Rejected out s .clientException .userException
  | unknown : Rejected out s .other .unexpectedMessage

/-- The message is about a task of this run, or a block of this run. -/
def Spec.InRun (g : DGraph N T K) (cfg : SConf T) : Msg N T → Prop
  | .acquire t => t ∈ cfg.served
  | .release n _ => n ∈ g.nodes
  | .blockFailed n _ => n ∈ g.nodes
  | _ => True

/-- C69: exactly the wrong messages make the server raise; every other message, whoever sends it, is handled. -/
theorem C69_server (hg : g.OK) (h : SRun g cfg ks σ) {m : Msg N T} (hm : InRun g cfg m) (s : S)
    (chk : Nat → N → Check) {pick : Nat → Finset N → N} (hp : LegalPick pick) (now : Int) (e : PyErr) :
    σ.handle g cfg chk pick now m s = .error e ↔ Rejected σ.out s m e := by
  have hi := h.inv hg
  have good : GoodMsg g cfg m → ¬ Rejected σ.out s m e →
      (σ.handle g cfg chk pick now m s = .error e ↔ Rejected σ.out s m e) := by
    intro hgm hr
    obtain ⟨σ', e1, _⟩ := handle_ok hg hi hgm s chk hp now
    rw [e1]
    exact ⟨fun hc => (by cases hc), fun hc => absurd hc hr⟩
  cases m with
  | acquire t => exact good hm (fun hr => by cases hr)
  | blockFailed n w => exact good hm (fun hr => by cases hr)
  | clientException =>
    have : σ.handle g cfg chk pick now .clientException s = .error .userException := rfl
    rw [this]
    exact ⟨fun hc => (by cases hc; exact .exception), fun hc => (by cases hc; rfl)⟩
  | other =>
    have : σ.handle g cfg chk pick now .other s = .error .unexpectedMessage := rfl
    rw [this]
    exact ⟨fun hc => (by cases hc; exact .unknown), fun hc => (by cases hc; rfl)⟩
  | release n status =>
    by_cases hst : status = .success ∨ status = .failed
    · refine good ⟨hm, hst⟩ (fun hr => ?_)
      cases hr with
      | release _ h1 h2 => rcases hst with hst | hst <;> contradiction
    · have h1 : status ≠ .success := fun hc => hst (Or.inl hc)
      have h2 : status ≠ .failed := fun hc => hst (Or.inr hc)
      by_cases hh : holder σ.out n = some s
      · have hheld : Held (evs σ.out) n := (hi.held n).2 (by rw [hh]; exact Option.some_ne_none s)
        have hb := (hi.book n hm).trans hh
        have : σ.handle g cfg chk pick now (.release n status) s = .error .runtimeError := by
          simp only [Server.handle, Server.safeRelease, if_pos (validReturn_iff.2 hb), Server.release,
            C69_scheduler hg hi.run hheld h1 h2 pick]
        rw [this]
        exact ⟨fun hc => (by cases hc; exact .release hh h1 h2), fun hc => (by cases hc; rfl)⟩
      · obtain ⟨σ', e1, _⟩ := C30_stale_return (cfg := cfg) hg h hm (Or.inl ⟨status, rfl⟩) hh chk pick now
        rw [e1]
        refine ⟨fun hc => (by cases hc), fun hc => ?_⟩
        cases hc
        contradiction

/-- Client 7 has block 0, and returns it with status PROCESSING. -/
example : ∃ (σ : Server (Fin 4) (Fin 2) (Fin 4) Nat) (ks : List (Server.Tick (Fin 4) (Fin 2) Nat)),
    Ex.vee.OK ∧ SRun Ex.vee Ex.veeConf ks σ ∧
    InRun Ex.vee Ex.veeConf (.release 0 .processing : Msg (Fin 4) (Fin 2)) ∧
    Rejected σ.out 7 (.release 0 .processing) .runtimeError := by
  obtain ⟨σ, h, e⟩ := Ex.vee_serve
  simp only [Prod.mk.injEq] at e
  refine ⟨σ, _, Ex.vee_ok, h, ?_, .release ?_ (by decide) (by decide)⟩
  · show (0 : Fin 4) ∈ Ex.vee.nodes
    decide
  · rw [e.1]; decide

section Client

variable {B T : Type}

theorem send_releases {c c' : TcpClient B T} {m : ClientMsg B T} (h : c.send m = .ok c') :
    c'.outbox = c.outbox ++ [m] := by
  unfold TcpClient.send at h
  split at h
  · cases h
  · split at h
    · cases h
    · split at h
      · cases h
      · cases h; rfl

theorem send_error {c c' : TcpClient B T} {m : ClientMsg B T} {e : ClientErr} (h : c.send m = .error (e, c')) :
    c'.outbox = c.outbox := by
  unfold TcpClient.send TcpClient.checkErrors at h
  split at h
  · rename_i hx
    split at hx <;> cases hx
    cases h; rfl
  · split at h
    · cases h; rfl
    · split at h
      · cases h; rfl
      · cases h

theorem net_outbox (evs : List (NetEv B)) (c : TcpClient B T) : (evs.foldl TcpClient.net c).outbox = c.outbox := by
  induction evs generalizing c with
  | nil => rfl
  | cons ev evs ih =>
    rw [List.foldl_cons, ih]
    cases ev <;> simp only [TcpClient.net] <;> split <;> rfl

theorem finish_releases (c : TcpClient B T) (b : B) (status : StatusVal) (pending : Option ClientErr) (b' : B)
    (st : StatusVal) (h : .release b' st ∈ (Client.finish c b status pending).2.outbox) :
    .release b' st ∈ c.outbox ∨ st = .enum .success ∨ st = .enum .failed := by
  unfold Client.finish at h
  dsimp only at h
  split at h
  · rename_i e c' hs
    rw [send_error hs] at h
    exact Or.inl h
  · rename_i c' hs
    rw [send_releases hs] at h
    rcases List.mem_append.1 h with h | h
    · exact Or.inl h
    · right
      have := List.mem_singleton.1 h
      injection this with _ e
      rw [e]
      split
      · exact Or.inr rfl
      · rename_i hn
        exact Or.inl (not_not.1 hn)

/-- C69: whatever the user's code does to the status of the block, and whatever happens to the connection, a client
never releases a block with a status that the server rejects. -/
theorem C69_client (c : TcpClient B T) (b : B) (body : BodyEnd) (evs evs' : List (NetEv B)) (b' : B)
    (st : StatusVal) (h : .release b' st ∈ (Client.leave c b body evs evs').2.outbox) :
    .release b' st ∈ c.outbox ∨ st = .enum .success ∨ st = .enum .failed := by
  unfold Client.leave at h
  split at h
  · have := finish_releases _ _ _ _ _ _ h
    rwa [net_outbox] at this
  · split at h
    · split at h
      · rename_i hs
        have := finish_releases _ _ _ _ _ _ h
        rwa [net_outbox, send_error hs, net_outbox] at this
      · rename_i hs
        have := finish_releases _ _ _ _ _ _ h
        rw [net_outbox, send_releases hs, net_outbox] at this
        rcases this with h | h
        · rcases List.mem_append.1 h with h | h
          · exact Or.inl h
          · cases List.mem_singleton.1 h
        · exact Or.inr h
    · have := finish_releases _ _ _ _ _ _ h
      rwa [net_outbox] at this

/-- The user's code sets the status to CREATED. -/
example : (.release 3 (.enum .failed) : ClientMsg Nat Nat) ∈
    (Client.leave ⟨[], true, true, [], []⟩ 3 ⟨.enum .created, none⟩ [] []).2.outbox := by
  decide

end Client

end Verif
