import Verif.Proofs.ServerLog
import Verif.Spec.ServerExec

/-! # Who has which block: C29, C30, C31, C32, C33, C36 -/

namespace Verif

open Spec

variable {N T K S : Type} [DecidableEq N] [DecidableEq T] [DecidableEq K] [DecidableEq S]
  {g : DGraph N T K} {cfg : SConf T} {σ σ' : Server N T K S} {ks : List (Server.Tick N T S)}

namespace Ex

/-- Both tasks of `Ex.vee` are served. -/
def veeConf : SConf (Fin 2) := ⟨[0, 1], fun _ => none⟩

/-- Client `7` gets block `0`, client `8` gets block `1` and gives it back, client `9` gets a block of the
second task, client `10` asks for one and has to wait. -/
def veeServe : List (Server.Tick (Fin 4) (Fin 2) Nat) :=
  ticks [acq 0 7, acq 0 8, ret 1 8, acq 1 9, acq 1 10]

theorem vee_serve : ∃ σ, SRun vee veeConf veeServe σ ∧
    ((σ.out, σ.pending 1) : List (Out (Fin 4) (Fin 2) Nat) × List Nat) =
      ([.taskStart 0, .callback 0, .recruit [0], .send 7 0, .acquired 0, .send 8 1, .acquired 0,
        .release 1 .success, .released 0, .taskStart 1, .callback 1, .recruit [1], .send 9 3, .acquired 1], [10]) :=
  sexec_run (ticks_legal _) _ (by decide +kernel)

end Ex

/-- C29: whatever correct clients send, in whatever order and over whatever streams, no iteration of the
event loop raises.  Partial: for consistent graphs
(`C29_false_asymmetric` has no consistent graph). -/
theorem C29_never_raises_partial (hg : g.Loose) (h : SRun g cfg ks σ) {k : Server.Tick N T S}
    (hk : GoodTick g cfg k) : ∃ σ', σ.iteration g cfg k = .ok σ' := by
  obtain ⟨σ', h1, _⟩ := iteration_ok hg (h.inv hg) hk
  exact ⟨σ', h1⟩

/-- C29: the list of sent blocks says exactly who has which block, has one entry per block, and its blocks
are those the scheduler considers to be processed.  Partial: for consistent graphs
(`C29_false_asymmetric` has no consistent graph). -/
theorem C29_sent_list_partial (hg : g.Loose) (h : SRun g cfg ks σ) {n : N} (hn : n ∈ g.nodes) :
    (∀ s, (∃ e ∈ σ.book, e.2.block = n ∧ e.2.stream = s) ↔ holder σ.out n = some s) ∧
    (∀ e ∈ σ.book, ∀ e' ∈ σ.book, e.2.block = e'.2.block → e = e') ∧
    (g.key n ∈ (σ.sched.queues (g.task n)).processing ↔ ∃ s, holder σ.out n = some s) := by
  have hi := h.inv hg
  refine ⟨?_, ?_, ?_⟩
  · intro s
    rw [← hi.book n hn]
    constructor
    · rintro ⟨e, he, rfl, rfl⟩
      rw [← (hi.entry e he).2, Book.get_of_mem (k := e.1) (l := e.2) hi.nodup he]
      rfl
    · intro hs
      obtain ⟨l, h1, h2⟩ := Option.map_eq_some_iff.1 hs
      have hm := Book.get_mem h1
      refine ⟨_, hm, ?_, h2⟩
      exact hg.key_inj _ (hi.entry _ hm).1 n hn (hi.entry _ hm).2.symm
  · intro e he e' he' hee
    refine List.inj_on_of_nodup_map hi.nodup he he' ?_
    rw [(hi.entry e he).2, (hi.entry e' he').2, hee]
  · rw [loose_proc hg hi.run]
    constructor
    · rintro ⟨m, h1, h2, h3⟩
      have := hg.key_inj m (held_mem hg hi.run h1) n hn h3
      subst this
      exact Option.ne_none_iff_exists'.1 ((hi.held m).1 h1)
    · intro hh
      exact ⟨n, (hi.held n).2 (Option.ne_none_iff_exists'.2 hh), rfl, rfl⟩

/-- C29: whenever a block was sent, nobody had it; whenever it was given to the scheduler, somebody
had it.  Partial: for consistent graphs
(`C29_false_asymmetric` has no consistent graph). -/
theorem C29_one_client_partial (hg : g.Loose) (h : SRun g cfg ks σ) {pre post : List (Out N T S)} {n : N} :
    (∀ s, σ.out = pre ++ .send s n :: post → holder pre n = none) ∧
    (∀ status, σ.out = pre ++ .release n status :: post → ∃ s, holder pre n = some s) := by
  have hl := loose_legal hg (h.inv hg).run
  have hst := h.status hg
  constructor
  · intro s he
    rw [he] at hl hst
    have hl' : Legal g (evs pre) := by
      rw [evs_append] at hl; exact legal_prefix hl rfl
    have hh := (log_held hl' (fun m st hm => hst m st (List.mem_append_left _ hm)) n).2
    rw [evs_append] at hl
    have hr : Ready g (evs pre) n := hl (evs pre) (.hand n) (evs post) rfl
    by_contra hc
    exact hr.2.2.2.2 (hh.2 hc)
  · intro status he
    rw [he] at hl hst
    have hl' : Legal g (evs pre) := by
      rw [evs_append] at hl; exact legal_prefix hl rfl
    have hh := (log_held hl' (fun m st hm => hst m st (List.mem_append_left _ hm)) n).2
    rw [evs_append] at hl
    have hr : Held (evs pre) n := by
      rcases hst n status (by simp) with rfl | rfl
      · exact hl (evs pre) (.good n) (evs post) rfl
      · exact hl (evs pre) (.bad n) (evs post) rfl
    exact Option.ne_none_iff_exists'.1 (hh.1 hr)

example : ∃ (σ : Server (Fin 4) (Fin 2) (Fin 4) Nat) (ks : List (Server.Tick (Fin 4) (Fin 2) Nat)),
    Ex.vee.OK ∧ SRun Ex.vee Ex.veeConf ks σ ∧
    GoodTick Ex.vee Ex.veeConf (tick pickMin (ret 0 7) : Server.Tick (Fin 4) (Fin 2) Nat) ∧
    holder σ.out 0 = some 7 ∧ holder σ.out 1 = none ∧
    σ.out = [.taskStart 0, .callback 0, .recruit [0]] ++ .send 7 0 :: [.acquired 0, .send 8 1, .acquired 0,
        .release 1 .success, .released 0, .taskStart 1, .callback 1, .recruit [1], .send 9 3, .acquired 1] := by
  obtain ⟨σ, h, e⟩ := Ex.vee_serve
  simp only [Prod.mk.injEq] at e
  refine ⟨σ, _, Ex.vee_ok, h, ⟨?_, pickMin_legal, fun _ => pickMin_legal⟩, ?_, ?_, e.1⟩
  · rintro m s hr
    cases hr
    decide
  · rw [e.1]; decide
  · rw [e.1]; decide

/-- The message returns the block or reports its failure. -/
def Returns (n : N) (m : Msg N T) : Prop := (∃ status, m = .release n status) ∨ ∃ w, m = .blockFailed n w

/-- C30, in any state whatsoever (reachable or not): a return or failure message from a client under
which the block is not registered changes neither the scheduler nor the sent list, and passes nothing
to the scheduler. -/
theorem C30_any_state {n : N} {s : S} {m : Msg N T} (hm : Returns n m)
    (hs : ∀ l, σ.book.get (g.key n) = some l → l.stream ≠ s) (chk : Nat → N → Check)
    (pick : Nat → Finset N → N) (now : Int) :
    ∃ σ', σ.handle g cfg chk pick now m s = .ok σ' ∧ σ'.sched = σ.sched ∧ σ'.book = σ.book ∧
      σ'.pending = σ.pending ∧ evs σ'.out = evs σ.out ∧ ∀ x, holder σ'.out x = holder σ.out x := by
  have hv : (σ.book.get (g.key n)).map (·.stream) ≠ some s := by
    intro hc
    obtain ⟨l, h1, h2⟩ := Option.map_eq_some_iff.1 hc
    exact hs l h1 h2
  have hf1 := checkAll_frame (g := g) σ
  rcases hm with ⟨status, rfl⟩ | ⟨w, rfl⟩
  · refine ⟨σ.checkAll g, ?_, hf1.sched, hf1.book, hf1.pending, hf1.evs, hf1.holder⟩
    simp only [Server.handle, safeRelease_invalid hv]
  · have hf : Frame σ (σ.emit [.blockFailure n w]) :=
      ⟨rfl, rfl, rfl, [.blockFailure n w], rfl, by simp [Silent]⟩
    have hf2 := hf.trans (checkAll_frame (g := g) _)
    refine ⟨(σ.emit [.blockFailure n w]).checkAll g, ?_, hf2.sched, hf2.book, hf2.pending, hf2.evs, hf2.holder⟩
    simp only [Server.handle, safeRelease_invalid hv]

/-- C30: in every execution, a return or failure message from a client that does not have the block
changes neither the scheduler nor the sent list. -/
theorem C30_stale_return (hg : g.Loose) (h : SRun g cfg ks σ) {n : N} (hn : n ∈ g.nodes) {s : S} {m : Msg N T}
    (hm : Returns n m) (hs : holder σ.out n ≠ some s) (chk : Nat → N → Check)
    (pick : Nat → Finset N → N) (now : Int) :
    ∃ σ', σ.handle g cfg chk pick now m s = .ok σ' ∧ σ'.sched = σ.sched ∧ σ'.book = σ.book ∧
      σ'.pending = σ.pending ∧ evs σ'.out = evs σ.out ∧ ∀ x, holder σ'.out x = holder σ.out x := by
  refine C30_any_state hm ?_ chk pick now
  intro l hl he
  rw [← (h.inv hg).book n hn, hl] at hs
  exact hs (congrArg some he)

example : ∃ (σ : Server (Fin 4) (Fin 2) (Fin 4) Nat) (ks : List (Server.Tick (Fin 4) (Fin 2) Nat)),
    Ex.vee.OK ∧ SRun Ex.vee Ex.veeConf ks σ ∧ holder σ.out 0 ≠ some 8 ∧ holder σ.out 1 ≠ some 8 ∧
    Returns 1 (.release 1 .success : Msg (Fin 4) (Fin 2)) := by
  obtain ⟨σ, h, e⟩ := Ex.vee_serve
  simp only [Prod.mk.injEq] at e
  refine ⟨σ, _, Ex.vee_ok, h, ?_, ?_, Or.inl ⟨_, rfl⟩⟩ <;> rw [e.1] <;> decide

/-- C31: the failure message of the client that has the block counts as one failed attempt.  If
afterwards anything happens except that this client asks for another block, the return message that
follows it changes nothing. -/
theorem C31_counted_once (hg : g.Loose) (h : SRun g cfg ks σ) (hstop : σ.stop = false) {n : N} {s : S}
    (hs : holder σ.out n = some s) (hwait : ∀ t, s ∉ σ.pending t) {k : Server.Tick N T S} {w : Nat}
    (hk : GoodTick g cfg k) (hrecv : k.recv = .msg (.blockFailed n w) s)
    (hit : σ.iteration g cfg k = .ok σ') :
    (evs σ'.out).count (Ev.bad n) = (evs σ.out).count (Ev.bad n) + 1 ∧
    ∀ {ks' : List (Server.Tick N T S)} {σ'' : Server N T K S}, SSteps g cfg σ' ks' σ'' →
      (∀ k' ∈ ks', ∀ t, k'.recv ≠ .msg (.acquire t) s) →
      ∀ (status : BlockStatus) (chk : Nat → N → Check) (pick : Nat → Finset N → N) (now : Int),
        ∃ σ₃, σ''.handle g cfg chk pick now (.release n status) s = .ok σ₃ ∧ σ₃.sched = σ''.sched ∧
          σ₃.book = σ''.book ∧ evs σ₃.out = evs σ''.out := by
  have hi := h.inv hg
  have hn : n ∈ g.nodes := hi.toSCore.mem hg (by rw [hs]; exact Option.some_ne_none s)
  -- the failure message
  obtain ⟨σ1, h1, h2, h3, h4⟩ := safeRelease_spec hg hi hn (s := s) (status := .failed) (Or.inr rfl) hk.2.1
  rw [if_pos hs] at h4
  obtain ⟨os, h5, h6⟩ := h4
  obtain ⟨σ2, hσ2⟩ : ∃ σ2, σ2 = (σ1.emit [.blockFailure n w]).checkAll g := ⟨_, rfl⟩
  have hf : Frame σ1 σ2 := by
    rw [hσ2]
    have h0 : Frame σ1 (σ1.emit [.blockFailure n w]) :=
      ⟨rfl, rfl, rfl, [.blockFailure n w], rfl, by simp [Silent]⟩
    exact h0.trans (checkAll_frame _)
  have hm : σ.handleMessages g cfg k.chk k.pick k.now k.recv = .ok σ2 := by
    rw [hrecv]
    simp only [Server.handleMessages, Server.handle, h1, hσ2]
  have hi2 : SInv g σ2 := h2.frame hf
  obtain ⟨σ3, os3, L, c1, c2, c3, c4, c5, c6, c7, c8, c9, _, c10⟩ :=
    checkLost_ok hg hi2 hk.2.2 k.closed k.clock
  have hh2 : holder σ2.out n = none := by
    rw [hf.holder, h5, holder_append, List.foldl_cons, fold_silent n os _ h6]
    simp [holderStep]
  have hL : n ∉ L := by
    intro hL
    obtain ⟨s', hs', _⟩ := (c9 n).1 hL
    rw [hh2] at hs'
    cases hs'
  have hsig : σ' = if k.late then σ3.checkAll g else σ3 := by
    unfold Server.iteration at hit
    rw [hm] at hit
    simp only at hit
    rw [c1] at hit
    cases hit
    rfl
  have hf3 : Frame σ3 σ' := by
    rw [hsig]; split
    · exact checkAll_frame σ3
    · exact Frame.refl σ3
  have hev1 : evs σ1.out = evs σ.out ++ [.bad n] := by
    rw [h5, evs_append]
    have : evs (.release n .failed :: os) = evs [(.release n .failed : Out N T S)] ++ evs os :=
      evs_append [_] os
    rw [this, evs_silent h6]
    rfl
  have hev : (evs σ'.out).count (Ev.bad n) = (evs σ.out).count (Ev.bad n) + 1 := by
    have hz : (L.map Ev.bad).count (Ev.bad n) = 0 := by
      rw [List.count_eq_zero, List.mem_map]
      rintro ⟨x, hx, he⟩
      cases he
      exact hL hx
    rw [hf3.evs, c5, evs_append, c7, hf.evs, hev1, List.count_append, hz, List.count_append]
    simp
  refine ⟨hev, ?_⟩
  intro ks' σ'' hsteps hnoacq status chk pick now
  have hi' : SInv g σ' := c2.frame hf3
  have hpend' : ∀ t, s ∉ σ'.pending t := by
    rw [hf3.pending, c4, hf.pending, h3]; exact hwait
  obtain ⟨⟨⟨os', e', hns⟩, _⟩, hi''⟩ := hsteps.noSend hg hi' hnoacq hpend'
  have hh' : holder σ'.out n = none := by
    rw [hf3.holder, c10, if_neg hL]
    exact hh2
  have hne : holder σ''.out n ≠ some s := by
    intro hc
    rw [e'] at hc
    have := holder_of_no_send (hns n) hc
    rw [hh'] at this
    cases this
  have hrun := (h.steps (SSteps.step k SSteps.nil hstop hk hit)).steps hsteps
  obtain ⟨σ₃, r1, r2, r3, _, r4, _⟩ := C30_stale_return (cfg := cfg) hg hrun hn (m := .release n status)
    (Or.inl ⟨_, rfl⟩) hne chk pick now
  exact ⟨σ₃, r1, r2, r3, r4⟩

example : ∃ (σ : Server (Fin 4) (Fin 2) (Fin 4) Nat) (ks : List (Server.Tick (Fin 4) (Fin 2) Nat)),
    Ex.vee.OK ∧ SRun Ex.vee Ex.veeConf ks σ ∧ σ.stop = false ∧ holder σ.out 0 = some 7 ∧
    (∀ t, 7 ∉ σ.pending t) ∧
    GoodTick Ex.vee Ex.veeConf (tick pickMin (.msg (.blockFailed 0 3) 7) : Server.Tick (Fin 4) (Fin 2) Nat) := by
  have hx : (sexec Ex.vee Ex.veeConf Ex.veeServe).map (fun σ => decide (σ.stop = false ∧
      holder σ.out 0 = some 7 ∧ ∀ t, 7 ∉ σ.pending t)) = some true := by decide +kernel
  obtain ⟨σ, h, e⟩ := sexec_run (ticks_legal _) _ hx
  obtain ⟨e1, e2, e3⟩ := of_decide_eq_true e
  refine ⟨σ, _, Ex.vee_ok, h, e1, e2, e3, ?_, pickMin_legal, fun _ => pickMin_legal⟩
  rintro m s hr
  cases hr
  decide

/-- C32: after every iteration, no block is with a client whose stream was closed.  The lost-block check
releases each such block as failed exactly once, releases nothing else, and leaves the blocks of the
other clients with them. -/
theorem C32_lost_blocks (hg : g.Loose) (h : SRun g cfg ks σ) (pick : N → Nat → Finset N → N)
    (hp : ∀ n, LegalPick (pick n)) (closed : S → Bool) (clock : Nat → Int) :
    ∃ σ' os, σ.checkLost g pick closed clock = .ok σ' ∧ σ'.out = σ.out ++ os ∧
      (∀ n s, holder σ.out n = some s → closed s = true →
        os.count (.release n .failed) = 1 ∧ holder σ'.out n = none) ∧
      (∀ n s, holder σ.out n = some s → closed s = false → holder σ'.out n = some s) ∧
      (∀ n status, .release n status ∈ os → status = .failed ∧
        ∃ s, holder σ.out n = some s ∧ closed s = true) ∧
      (∀ s n, .send s n ∉ os) ∧
      σ'.book = σ.book.filter (fun e => ! closed e.2.stream) := by
  obtain ⟨σ', os, L, h1, h2, h3, h4, h5, h6, h7, h8, h9, h10, h11⟩ :=
    checkLost_ok hg (h.inv hg) hp closed clock
  refine ⟨σ', os, h1, h5, ?_, ?_, ?_, ?_, h3⟩
  · intro n s hs hc
    have hL := (h9 n).2 ⟨s, hs, hc⟩
    rw [h10, h11]
    simp [hL]
  · intro n s hs hc
    have hL : n ∉ L := by
      intro hL
      obtain ⟨s', hs', hc'⟩ := (h9 n).1 hL
      rw [hs] at hs'
      cases hs'
      rw [hc] at hc'
      cases hc'
    rw [h11, if_neg hL, hs]
  · intro n status hm
    rcases h6 _ hm with hx | ⟨m, hm', e⟩
    · exact absurd hx id
    · cases e
      exact ⟨rfl, (h9 _).1 hm'⟩
  · intro s n hm
    rcases h6 _ hm with hx | ⟨m, hm', e⟩
    · exact hx
    · cases e

/-- C32, for a whole iteration. -/
theorem C32_iteration (hg : g.Loose) (h : SRun g cfg ks σ) {k : Server.Tick N T S} (hk : GoodTick g cfg k)
    (he : σ.iteration g cfg k = .ok σ') :
    (∀ n s, holder σ'.out n = some s → k.closed s = false) ∧ ∀ e ∈ σ'.book, k.closed e.2.stream = false := by
  obtain ⟨σ1, h1, h2⟩ := handleMessages_ok hg (h.inv hg) k.recv hk.1 k.chk hk.2.1 k.now
  obtain ⟨σ2, os, L, c1, c2, c3, c4, c5, c6, c7, c8, c9, _, c10⟩ := checkLost_ok hg h2 hk.2.2 k.closed k.clock
  unfold Server.iteration at he
  rw [h1] at he
  simp only at he
  rw [c1] at he
  have hf : Frame σ2 σ' := by
    cases he
    split
    · exact checkAll_frame σ2
    · exact Frame.refl σ2
  constructor
  · intro n s hs
    rw [hf.holder, c10] at hs
    split at hs
    · cases hs
    · rename_i hL
      cases hc : k.closed s
      · rfl
      · exact absurd ((c9 n).2 ⟨s, hs, hc⟩) hL
  · intro e hm
    rw [hf.book, c3] at hm
    have := (List.mem_filter.1 hm).2
    simpa using this

example : ∃ (σ : Server (Fin 4) (Fin 2) (Fin 4) Nat) (ks : List (Server.Tick (Fin 4) (Fin 2) Nat)),
    Ex.vee.OK ∧ SRun Ex.vee Ex.veeConf ks σ ∧ holder σ.out 0 = some 7 ∧
    GoodTick Ex.vee Ex.veeConf (tick pickMin .nothing [] [7] : Server.Tick (Fin 4) (Fin 2) Nat) ∧
    (tick pickMin .nothing [] [7] : Server.Tick (Fin 4) (Fin 2) Nat).closed 7 = true := by
  obtain ⟨σ, h, e⟩ := Ex.vee_serve
  simp only [Prod.mk.injEq] at e
  refine ⟨σ, _, Ex.vee_ok, h, ?_, ⟨?_, pickMin_legal, fun _ => pickMin_legal⟩, rfl⟩
  · rw [e.1]; decide
  · rintro m s hr; cases hr

/-- An entry of the sent list is lost: its stream is closed, or it was sent too long ago (as seen when
the loop looks at it, in iteration `i`). -/
def LostEntry (closed : S → Bool) (timeout : Option Int) (clock : Nat → Int) (i : Nat)
    (log : BlockLog N S) : Prop :=
  closed log.stream = true ∨ ∃ d, timeout = some d ∧ clock i - log.sentAt > d

/-- C33, partial.  The full claim has no hypothesis `hnot` and is false (`C33_false`): when no block is both
disconnected and timed out, `get_lost_blocks` does not raise, keeps exactly the entries that are not
lost, and returns the blocks of the others, one for each. -/
theorem C33_get_lost_partial {b : Book N K S} (closed : S → Bool) (timeout : Option Int) (clock : Nat → Int)
    (hkeys : (b.map (·.1)).Nodup)
    (hnot : ∀ e i, (e, i) ∈ b.zipIdx → ¬ (closed e.2.stream = true ∧
      ∃ d, timeout = some d ∧ clock i - e.2.sentAt > d)) :
    ∃ lost b', b.getLost closed timeout clock = .ok (lost, b') ∧ b'.Sublist b ∧
      (∀ e i, (e, i) ∈ b.zipIdx → (e ∈ b' ↔ ¬ LostEntry closed timeout clock i e.2)) ∧
      lost = (b.filter (fun e => decide (e ∉ b'))).map (·.2.block) := by
  refine ⟨_, _, Book.getLost_ok closed timeout clock hkeys hnot, ?_⟩
  have hLA : ∀ i (e : BlockLog N S), Book.LostAt closed timeout clock i e = true ↔
      LostEntry closed timeout clock i e := by
    intro i e
    unfold Book.LostAt LostEntry
    cases timeout <;> simp
  have hnd : b.Nodup := hkeys.of_map
  have hmem : ∀ e i, (e, i) ∈ b.zipIdx →
      (e ∈ (b.zipIdx.filter (fun e => ! Book.LostAt closed timeout clock e.2 e.1.2)).map (·.1) ↔
        ¬ LostEntry closed timeout clock i e.2) := by
    intro e i hei
    rw [List.mem_map]
    constructor
    · rintro ⟨⟨e', j⟩, h1, rfl⟩
      obtain ⟨h2, h3⟩ := List.mem_filter.1 h1
      have hij : j = i := by
        obtain ⟨_, h4⟩ := List.mem_zipIdx' hei
        obtain ⟨_, h5⟩ := List.mem_zipIdx' h2
        exact (List.Nodup.getElem_inj_iff hnd).1 (h5.symm.trans h4)
      subst hij
      rw [← hLA]
      simpa using h3
    · intro hn
      refine ⟨(e, i), List.mem_filter.2 ⟨hei, ?_⟩, rfl⟩
      rw [← hLA] at hn
      simpa using hn
  refine ⟨?_, hmem, ?_⟩
  · have := (List.filter_sublist (p := fun e : (K × BlockLog N S) × Nat =>
      ! Book.LostAt closed timeout clock e.2 e.1.2) (l := b.zipIdx)).map Prod.fst
    rwa [List.zipIdx_map_fst] at this
  · conv_rhs => rw [← List.zipIdx_map_fst 0 b]
    rw [List.filter_map, List.map_map]
    rw [List.zipIdx_map_fst]
    congr 1
    apply List.filter_congr
    rintro ⟨e, i⟩ he
    simp only [Function.comp]
    rw [Bool.eq_iff_iff, decide_eq_true_iff, hLA, hmem e i he, not_not]

example : ∃ (b : Book Nat Nat Nat), (b.map (·.1)).Nodup ∧
    (∀ e i, (e, i) ∈ b.zipIdx → ¬ ((decide (e.2.stream = 1)) = true ∧
      ∃ d, (some 5 : Option Int) = some d ∧ (fun _ => 10 : Nat → Int) i - e.2.sentAt > d)) ∧
    b.getLost (fun s => decide (s = 1)) (some 5) (fun _ => 10) = .ok ([11, 12], [(3, ⟨13, 3, 8⟩)]) := by
  refine ⟨[(1, ⟨11, 1, 7⟩), (2, ⟨12, 2, 4⟩), (3, ⟨13, 3, 8⟩)], by decide, ?_, by decide⟩
  intro e i he
  simp only [List.zipIdx_cons, List.zipIdx_nil, List.mem_cons, List.not_mem_nil, or_false,
    Prod.mk.injEq] at he
  rintro ⟨h1, d, h2, h3⟩
  cases h2
  rcases he with ⟨rfl, rfl⟩ | ⟨rfl, rfl⟩ | ⟨rfl, rfl⟩ <;> revert h1 h3 <;> decide

/-- C33 is false in general: if the stream is closed and the block has timed out as well, its id is listed
twice and the second removal raises `KeyError`. -/
theorem C33_false : ∃ (b : Book Nat Nat Nat) (closed : Nat → Bool) (timeout : Option Int) (clock : Nat → Int),
    (b.map (·.1)).Nodup ∧ b.getLost closed timeout clock = .error .keyError :=
  ⟨[(1, ⟨11, 1, 0⟩)], fun _ => true, some 5, fun _ => 10, by decide, by decide⟩

/-- C36 is false: `Task.timeout` has no effect on the server at all.  Whatever the timeouts of the tasks
are, the server does the same. -/
theorem C36_timeout_ignored (cfg : SConf T) (timeout : T → Option Int) (k : Server.Tick N T S) :
    σ.iteration g { cfg with timeout := timeout } k = σ.iteration g cfg k := rfl

/-- A run in which client `7` has had block `0` of a task with timeout 1 for a thousand seconds when
the server looks for lost blocks. -/
theorem C36_false : ∃ (g : DGraph (Fin 4) (Fin 2) (Fin 4)) (cfg : SConf (Fin 2))
    (ks : List (Server.Tick (Fin 4) (Fin 2) Nat)) (σ : Server (Fin 4) (Fin 2) (Fin 4) Nat), g.OK ∧
    (∀ t, cfg.timeout t = some 1) ∧ SRun g cfg ks σ ∧ holder σ.out 0 = some 7 ∧
    (∃ e ∈ σ.book, e.2.block = 0 ∧ e.2.sentAt = 0) ∧ ∃ k ∈ ks.getLast?, ∀ i, k.clock i = 1000 := by
  have hx : (sexec Ex.vee ⟨[0, 1], fun _ => some 1⟩ [tick pickMin (acq 0 7), tick pickMin .nothing [] [] 1000]).map
    (fun σ => (σ.out, σ.book)) = some (([.taskStart 0, .callback 0, .recruit [0], .send 7 0, .acquired 0] :
      List (Out (Fin 4) (Fin 2) Nat)), [(0, ⟨0, 7, 0⟩)]) := by decide +kernel
  have hp : ∀ k ∈ ([tick pickMin (acq 0 7), tick pickMin .nothing [] [] 1000] :
      List (Server.Tick (Fin 4) (Fin 2) Nat)), LegalPick k.pick ∧ ∀ n, LegalPick (k.pickLost n) := by
    intro k hk
    simp only [List.mem_cons, List.not_mem_nil, or_false] at hk
    rcases hk with rfl | rfl <;> exact ⟨pickMin_legal, fun _ => pickMin_legal⟩
  obtain ⟨σ, h, e⟩ := sexec_run hp _ hx
  simp only [Prod.mk.injEq] at e
  refine ⟨Ex.vee, _, _, σ, Ex.vee_ok, fun _ => rfl, h, ?_, ?_, _, rfl, fun _ => rfl⟩
  · rw [e.1]; decide
  · rw [e.2]; exact ⟨_, List.mem_singleton.2 rfl, rfl, rfl⟩

end Verif
