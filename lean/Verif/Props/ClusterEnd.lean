import Verif.Proofs.ClusterEnd
import Verif.Props.Cluster

/-! # C92: how worker processes end -/

set_option linter.unusedSectionVars false

namespace Verif

open Spec

variable {N T K S : Type} [DecidableEq N] [DecidableEq T] [DecidableEq K] [DecidableEq S]
  {g : DGraph N T K} {c : SysConf T} {es : List (ClEv N T S)} {x : Cluster N T K S}

/-- C92: a process whose connection did not fail ends in one of two ways.  It returns after the server asked it to
shut down, about its own task, and after it said goodbye.  Or the process function was interrupted by an exception
like `KeyboardInterrupt`, which the process ends with. -/
theorem C92_end (hg : g.Loose) (h : ClRun g c es x) {s : S} (hs : ∀ v, .breaks s v ∉ es) {k : Conn N T}
    (hk : x.conn s = some k) {r : Option ClientErr} (hr : k.phase = .ended r) :
    (r = none ∧ .shutdown s k.task ∈ x.sys.srv.out ∧ k.gone = true) ∨
    ∃ e es₁ body es₂, ∃ y : Cluster N T K S, ∃ n, r = some e ∧ es = es₁ ++ .client s body :: es₂ ∧ ClRun g c es₁ y ∧
      WorksOn y s n ∧ body.raised = some e ∧ e.isException = false := by
  have hS := ClRun.sound hg h hs hk
  rcases hS.ended r hr with ⟨h1, h2⟩ | h1
  · exact Or.inl ⟨h1, hS.asked (Or.inr (Or.inr (Or.inr h2))), h2⟩
  · exact Or.inr h1

/-- C92: a process that has said goodbye leaves nothing behind: if the server did not lose its stream, it has no block
on record for it, no request of it is kept, and no message of it is unread. -/
theorem C92_nothing_left (hg : g.Loose) (h : ClRun g c es x) {s : S} {k : Conn N T} (hk : x.conn s = some k)
    (hgone : k.gone = true) (hc : s ∉ x.sys.closed) :
    unhandled x s = [] ∧ (∀ n, holder x.sys.srv.out n ≠ some s) ∧ ∀ t, s ∉ x.sys.srv.pending t := by
  have := (ClRun.bye hg h s k hk).calm hc (Or.inr (Or.inr hgone))
  unfold unhandled
  rw [hk]
  exact this

/-- C92: with failures of the connection: a process ends with an exception only if its connection failed, or its
process function was interrupted.  The exceptions of the process function never end a process, and no process ends
with `Unexpected message`. -/
theorem C92_exceptions (hg : g.Loose) (h : ClRun g c es x) {s : S} {k : Conn N T} (hk : x.conn s = some k)
    {e : ClientErr} (hr : k.phase = .ended (some e)) :
    ((∃ v, .breaks s v ∈ es) ∧ (e = .streamClosed ∨ e = .notConnected ∨ .breaks s (.fails e) ∈ es)) ∨
    ∃ body, .client s body ∈ es ∧ body.raised = some e ∧ e.isException = false := by
  by_cases hs : ∀ v, .breaks s v ∉ es
  · rcases C92_end hg h hs hk hr with ⟨h1, _⟩ | ⟨e', es₁, body, es₂, y, n, h1, h2, _, _, h3, h4⟩
    · cases h1
    · cases h1
      exact Or.inr ⟨body, by rw [h2]; simp, h3, h4⟩
  · have hs' : ∃ v, .breaks s v ∈ es := by
      by_contra hc
      exact hs (fun v hv => hc ⟨v, hv⟩)
    rcases (ClRun.errs hg h hk).ended e hr with h1 | h1 | h1 | h1
    · exact Or.inl ⟨hs', Or.inl h1⟩
    · exact Or.inl ⟨hs', Or.inr (Or.inl h1)⟩
    · exact Or.inl ⟨hs', Or.inr (Or.inr h1)⟩
    · exact Or.inr h1

/-- C92: such a process hands no exception to its pool; and if it was not interrupted, its exit code is 0 and the
server had asked it to shut down. -/
theorem C92_exit (hg : g.Loose) (h : ClRun g c es x) {s : S} (hs : ∀ v, .breaks s v ∉ es) {k : Conn N T}
    (hk : x.conn s = some k) {r : Option ClientErr} (hr : k.phase = .ended r) (arg : Int) :
    (spawnWrapper arg r).reported = none ∧
    ((∀ body e, .client s body ∈ es → body.raised = some e → e.isException = true) →
      (spawnWrapper arg r).code = 0 ∧ .shutdown s k.task ∈ x.sys.srv.out) := by
  rcases C92_end hg h hs hk hr with ⟨rfl, h1, h2⟩ | ⟨e, es₁, body, es₂, y, n, rfl, h2, _, _, h3, h4⟩
  · exact ⟨rfl, fun _ => ⟨rfl, h1⟩⟩
  · constructor
    · unfold spawnWrapper
      dsimp only
      rw [h4]
      split_ifs <;> first | rfl | contradiction
    · intro hx
      have := hx body e (by rw [h2]; simp) h3
      rw [h4] at this
      cases this

/-- C92: in general, what a process hands to its pool is the exception it ended with, if that is an `Exception`; this
happens only if its connection failed.  A process that returned or was interrupted by ctrl-c has exit code 0, so has one
that handed over an exception. -/
theorem C92_reports (hg : g.Loose) (h : ClRun g c es x) {s : S} {k : Conn N T} (hk : x.conn s = some k)
    {r : Option ClientErr} (hr : k.phase = .ended r) (arg : Int) :
    (∀ e, (spawnWrapper arg r).reported = some e ↔ r = some e ∧ e.isException = true) ∧
    ((spawnWrapper arg r).reported ≠ none → ∃ v, .breaks s v ∈ es) ∧
    (r = none ∨ (spawnWrapper arg r).reported ≠ none ∨ r = some (.base "KeyboardInterrupt") →
      (spawnWrapper arg r).code = 0) := by
  have key : ∀ e, (spawnWrapper arg r).reported = some e ↔ r = some e ∧ e.isException = true := by
    intro e
    unfold spawnWrapper
    cases r with
    | none => simp
    | some e' =>
      dsimp only
      split_ifs with h1 h2 h3
      · constructor
        · intro he; cases he; exact ⟨rfl, h1⟩
        · rintro ⟨he, _⟩; cases he; rfl
      all_goals
        constructor
        · intro he
          cases he
        · rintro ⟨he, he'⟩
          cases he
          exact absurd he' h1
  refine ⟨key, ?_, ?_⟩
  · intro hne
    obtain ⟨e, he⟩ := Option.ne_none_iff_exists'.1 hne
    obtain ⟨h1, h2⟩ := (key e).1 he
    rcases C92_exceptions hg h hk (hr.trans (congrArg _ h1)) with ⟨hb, _⟩ | ⟨_, _, _, h3⟩
    · exact hb
    · rw [h2] at h3; cases h3
  · rintro (h1 | h1 | h1)
    · rw [h1]; rfl
    · obtain ⟨e, he⟩ := Option.ne_none_iff_exists'.1 h1
      obtain ⟨h2, h3⟩ := (key e).1 he
      rw [h2]
      simp [spawnWrapper, h3]
    · rw [h1]
      simp [spawnWrapper, ClientErr.isException]

/-- C92: a process survives the exceptions of its process function: two steps later it is about to ask for the next
block. -/
theorem C92_survives (hg : g.Loose) (h : ClRun g c es x) {s : S} (hs : ∀ v, .breaks s v ∉ es) {k : Conn N T} {n : N}
    (hk : x.conn s = some k) (hn : k.phase = .working n) {body : BodyEnd} {e : ClientErr}
    (hb : body.raised = some e) (he : e.isException = true) (body' : BodyEnd) :
    ((k.step body).step body').phase = .idle ∧
    ((k.step body).step body').tcp.outbox = k.tcp.outbox ++ [.blockFailed n e, .release n (.enum .failed)] := by
  have hS := ClRun.sound hg h hs hk
  have hc : k.tcp.connected = true := by
    by_contra hc
    rcases (ClRun.bye hg h s k hk).phase (Or.inr (Or.inr (hS.conn (by simpa using hc)))) with h3 | h3
    · rw [hn] at h3; cases h3
    · rw [hn] at h3; exact h3
  have h1 : k.step body = { k with
      tcp := { k.tcp with outbox := k.tcp.outbox ++ [.blockFailed n e] }, phase := .failing n none } := by
    simp only [Conn.step, hn, hb, he, if_true]
    rw [send_ok hS.excs hc hS.writable]
  have h2 : Client.finish ({ k.tcp with outbox := k.tcp.outbox ++ [.blockFailed n e] } : TcpClient N T) n (.enum .failed)
      none = (none, { k.tcp with
        outbox := k.tcp.outbox ++ [.blockFailed n e] ++ [.release n (.enum .failed)] }) := by
    unfold Client.finish
    dsimp only
    rw [if_pos (by decide), send_ok (by exact hS.excs) (by exact hc) (by exact hS.writable)]
  rw [h1]
  simp only [Conn.step]
  rw [h2]
  simp [Conn.exits]

/-- Client 7 works on the only block, client 8 is told to shut down and says goodbye. -/
def Ex.parted : List (SimpleCl (Fin 1) (Fin 1) Nat) :=
  [.connect 7 0, .connect 8 0] ++ Ex.fetch 7 ++ Ex.fetch 8 ++ [.up 8, .down 8, .client 8]

example : ∃ es, ∃ x : Cluster (Fin 1) (Fin 1) (Fin 1) Nat, ∃ k k', ClRun Ex.single Ex.lineConf es x ∧
    (∀ s v, .breaks s v ∉ es) ∧ x.sys.closed = [] ∧ x.conn 8 = some k ∧ k.phase = .ended none ∧ k.gone = true ∧
    x.conn 7 = some k' ∧ k'.phase = .working 0 := by
  have hx : (Ex.clRun Ex.single Ex.parted).map (fun x => decide (x.sys.closed = [] ∧
      (x.conn 8).map (fun k => (k.phase, k.gone)) = some (.ended none, true) ∧
      (x.conn 7).map (·.phase) = some (.working 0))) = some true := by decide +kernel
  obtain ⟨x, h, e⟩ := Ex.clRun_run _ hx
  obtain ⟨e1, e2, e3⟩ := of_decide_eq_true e
  obtain ⟨k, a1, a2⟩ := Option.map_eq_some_iff.1 e2
  obtain ⟨k', a3, a4⟩ := Option.map_eq_some_iff.1 e3
  simp only [Prod.mk.injEq] at a2
  refine ⟨_, x, k, k', h, ?_, e1, a1, a2.1, a2.2, a3, a4⟩
  intro s v hv
  simp [Ex.parted, Ex.fetch, SimpleCl.ev] at hv

/-- Client 7 is interrupted while it works; client 8 loses its connection before it gives its block back. -/
example : ∃ es, ∃ x : Cluster (Fin 1) (Fin 1) (Fin 1) Nat, ∃ k k', ClRun Ex.single Ex.lineConf es x ∧
    x.conn 7 = some k ∧ k.phase = .ended (some (.base "KeyboardInterrupt")) ∧ x.conn 8 = some k' ∧
    k'.phase = .ended (some .streamClosed) := by
  have hx : (Ex.clRun Ex.single ([.connect 7 0, .connect 8 0] ++ Ex.fetch 7 ++ [.interrupt 7, .up 7, .loop] ++
      Ex.fetch 8 ++ [.breaks 8, .client 8])).map (fun x => decide (
        (x.conn 7).map (·.phase) = some (.ended (some (.base "KeyboardInterrupt"))) ∧
        (x.conn 8).map (·.phase) = some (.ended (some .streamClosed)))) = some true := by decide +kernel
  obtain ⟨x, h, e⟩ := Ex.clRun_run _ hx
  obtain ⟨e1, e2⟩ := of_decide_eq_true e
  obtain ⟨k, a1, a2⟩ := Option.map_eq_some_iff.1 e1
  obtain ⟨k', a3, a4⟩ := Option.map_eq_some_iff.1 e2
  exact ⟨_, x, k, k', h, a1, a2, a3, a4⟩

end Verif
