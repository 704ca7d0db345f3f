import Verif.Proofs.Raised
import Verif.Props.Client
import Verif.Props.Summary
import Verif.Props.ServerStop

/-! # C120: whatever exception user code raises, its block fails and nothing else happens -/

set_option linter.unusedSectionVars false

namespace Verif

open Spec FineSrv

variable {N T K S : Type} [DecidableEq N] [DecidableEq T] [DecidableEq K] [DecidableEq S]
  {g : DGraph N T K} {cfg : SConf T} {ks : List (FineTick N T S)} {x x' : FineSrv N T K S} {k : FineTick N T S}

/-- C120: if user code raises an `Exception`, the client hands two messages to its IO loop, and goes on. -/
theorem C120_sent {c : TcpClient N T} (h : Online c) (n : N) {body : BodyEnd} {e : ClientErr}
    (hr : body.raised = some e) (he : e.isException = true) {evs evs' : List (NetEv N)} (hq : Quiet evs)
    (hq' : Quiet evs') :
    (Client.leave c n body evs evs').1 = none ∧
    (Client.leave c n body evs evs').2.outbox = c.outbox ++ [.blockFailed n e, .release n (.enum .failed)] := by
  obtain ⟨h1, h2, _⟩ := C46_exact h n body hq hq'
  rw [h1, h2, hr]
  constructor
  · rw [Option.filter, he]; rfl
  · unfold Spec.report
    rw [hr]
    have hw : ¬ (WentWell body ∨ Late body) := by
      rintro (hw | ⟨⟨name, hl⟩, _⟩)
      · unfold WentWell at hw
        rw [hr] at hw
        cases hw.1
      · rw [hr] at hl
        cases hl
        cases he
    rw [if_neg hw]
    cases e with
    | base _ => cases he
    | _ => rfl

/-- C120: what the server gets of these two messages, whatever happens on other streams at the same time.  If the message
with the exception cannot be pickled, the other one still comes; if it cannot be unpickled, nothing is read from this
client any more, and the event loop gets an exception. -/
theorem C120_arrives (fate : ClientErr → Fate) (w : Nat) {s : S} {n : N} {e : ClientErr} {io : List (SrvIo N T S)}
    (hio : io.filter (fun e => decide (streamOf e = s)) = wire fate w s [.blockFailed n e, .release n (.enum .failed)])
    (hs : (x.links s).pc = .reading) :
    match fate e with
    | .fine => fromStream s (x.ioRun io).queue = fromStream s x.queue ++ [.blockFailed n w, .release n .failed] ∧
        (x.ioRun io).links s = x.links s
    | .unsent => fromStream s (x.ioRun io).queue = fromStream s x.queue ++ [.release n .failed] ∧
        (x.ioRun io).links s = x.links s
    | .unread e' => fromStream s (x.ioRun io).queue = fromStream s x.queue ∧ ((x.ioRun io).links s).pc = .over ∧
        .other e' ∈ (x.ioRun io).excs := by
  obtain ⟨h1, h2, h3⟩ := own_steps s io (x := x) (y := x) rfl
  rw [hio] at h1 h2 h3
  have h2 := h2 rfl
  have hap : ∀ (q : List (Msg N T × S)) (ms : List (Msg N T)),
      fromStream s (q ++ ms.map (fun m => (m, s))) = fromStream s q ++ ms := by
    intro q ms
    unfold fromStream
    rw [List.filter_append, List.map_append]
    congr 1
    rw [List.filter_eq_self.2 (by intro p hp; obtain ⟨m, _, rfl⟩ := List.mem_map.1 hp; simp), List.map_map]
    exact List.map_id _
  cases hf : fate e with
  | fine =>
    have hw : wire fate w s [.blockFailed n e, .release n (.enum .failed)] =
        ([.arrive (.blockFailed n w) s, .arrive (.release n .failed) s] : List (SrvIo N T S)) := by
      simp [wire, wireMsg, hf]
    rw [hw] at h1 h2
    have hx : x.ioRun [.arrive (.blockFailed n w) s, .arrive (.release n .failed) s] =
        { x with queue := x.queue ++ [.blockFailed n w, .release n .failed].map (fun m => (m, s)) } := by
      simp only [ioRun, List.foldl_cons, List.foldl_nil, ioStep, hs, if_true, List.append_assoc]
      rfl
    rw [hx] at h1 h2
    exact ⟨h2.trans (hap _ _), h1⟩
  | unsent =>
    have hw : wire fate w s [.blockFailed n e, .release n (.enum .failed)] =
        ([.arrive (.release n .failed) s] : List (SrvIo N T S)) := by
      simp [wire, wireMsg, hf]
    rw [hw] at h1 h2
    have hx : x.ioRun [.arrive (.release n .failed) s] =
        { x with queue := x.queue ++ [.release n .failed].map (fun m => (m, s)) } := by
      simp only [ioRun, List.foldl_cons, List.foldl_nil, ioStep, hs, if_true]
      rfl
    rw [hx] at h1 h2
    exact ⟨h2.trans (hap _ _), h1⟩
  | unread e' =>
    have hw : wire fate w s [.blockFailed n e, .release n (.enum .failed)] =
        ([.bad s e', .put s, .arrive (.release n .failed) s] : List (SrvIo N T S)) := by
      simp [wire, wireMsg, hf]
    rw [hw] at h1 h2 h3
    have ha : x.ioStep (.bad s e') = x.setLink s { x.links s with pc := .raising (.other e') } := by
      simp only [ioStep, hs, if_true]
    have hx : ∃ y : FineSrv N T K S, x.ioRun [.bad s e', .put s, .arrive (.release n .failed) s] = y ∧
        y.queue = x.queue ∧ (y.links s).pc = .over ∧ .other e' ∈ y.excs := by
      refine ⟨_, rfl, ?_⟩
      simp only [ioRun, List.foldl_cons, List.foldl_nil, ha]
      simp [ioStep, setLink, upd]
    obtain ⟨y, hy, y1, y2, y3⟩ := hx
    rw [hy] at h1 h2 h3
    refine ⟨h2.trans (by rw [y1]), by rw [h1]; exact y2, ?_⟩
    rcases h3 _ y3 with h | h
    · obtain ⟨l, hl⟩ := ioRun_excs io x
      rw [hl]
      exact List.mem_append_left _ h
    · exact h

/-- C120: a client that disconnects afterwards is not noticed by the event loop: nothing more is read from its stream, no
exception and no message comes, and other streams are not touched. -/
theorem C120_leaves (fate : ClientErr → Fate) (w : Nat) {s : S} (hs : (x.links s).pc = .reading)
    (hi : (x.links s).inner = true) :
    ((x.ioRun (wire fate w s [.disconnect])).links s).pc = .over ∧
    (x.ioRun (wire fate w s [.disconnect])).queue = x.queue ∧ (x.ioRun (wire fate w s [.disconnect])).excs = x.excs ∧
    ∀ s', s' ≠ s → (x.ioRun (wire fate w s [.disconnect])).links s' = x.links s' := by
  have e : x.ioRun (wire fate w s [.disconnect]) = x.setLink s { x.links s with pc := .over } := by
    simp [wire, wireMsg, FineSrv.ioRun, FineSrv.ioStep, hs, hi]
  rw [e]
  exact ⟨by simp [FineSrv.setLink, upd], rfl, rfl, fun s' h => by simp [FineSrv.setLink, upd, h]⟩

/-- C120: if the first message of the client about its block that the server handles is the failure message or, because
that was never sent, the message that returns the block, one failed attempt is counted.  Observers are told of it only in
the first case. -/
theorem C120_counted (hg : g.Loose) (hserved : ∀ n ∈ g.nodes, g.task n ∈ cfg.served) (h : FineRun g cfg ks x)
    (hk : FineLegal g k) {n : N} {s : S} (hs : holder x.srv.out n = some s) {m : Msg N T}
    (hm : m = .release n .failed ∨ ∃ w, m = .blockFailed n w) (hget : Gets x k (.msg m s))
    (he : x.iteration g cfg k = .ok x') :
    (evs x'.srv.out).count (Ev.bad n) = (evs x.srv.out).count (Ev.bad n) + 1 ∧
    (m = .release n .failed → told x'.srv.out = told x.srv.out) ∧
    ∀ w, m = .blockFailed n w → told x'.srv.out = told x.srv.out ++ [(n, w)] := by
  obtain ⟨hi, hq⟩ := h.inv hg hserved
  have hn : n ∈ g.nodes := hi.toSCore.mem hg (by rw [hs]; exact Option.some_ne_none s)
  obtain ⟨r, σ, p, σ', hr, h1, _, h2, _, _, h3, h4, _⟩ := fine_ok hg hserved hi hq hk he
  have := gets_unique hr hget
  subst this
  obtain ⟨σ1, a1, a2, _, a3⟩ := safeRelease_spec hg hi hn (s := s) (status := .failed) (Or.inr rfl) hk.2.1
  rw [if_pos hs] at a3
  obtain ⟨os, a3, a4⟩ := a3
  have b1 : evs σ1.out = evs x.srv.out ++ [Ev.bad n] := by
    rw [a3, evs_append]
    congr 1
    have : evs (.release n .failed :: os) = evs [(.release n .failed : Out N T S)] ++ evs os := evs_append [_] os
    rw [this, evs_silent a4]
    rfl
  have b2 : holder σ1.out n = none := by
    rw [a3, holder_append, List.foldl_cons, fold_silent n os _ a4]
    simp [holderStep]
  have b3 := told_noFail (safeRelease_noFail a1)
  have key : Frame σ1 σ ∧ (m = .release n .failed → told σ.out = told x.srv.out) ∧
      ∀ w, m = .blockFailed n w → told σ.out = told x.srv.out ++ [(n, w)] := by
    rcases hm with rfl | ⟨w, rfl⟩
    · simp only [Server.handleMessages, Server.handle, a1, Except.ok.injEq] at h1
      subst h1
      refine ⟨checkAll_frame _, fun _ => ?_, ?_⟩
      · rw [told_noFail (checkAll_noFail σ1), b3]
      · intro w e; cases e
    · simp only [Server.handleMessages, Server.handle, a1, Except.ok.injEq] at h1
      subst h1
      refine ⟨Frame.trans (σ₂ := σ1.emit [.blockFailure n w]) ⟨rfl, rfl, rfl, _, rfl, by simp [Silent]⟩
        (checkAll_frame _), ?_, ?_⟩
      · intro e; cases e
      · intro w' e
        cases e
        rw [told_noFail (checkAll_noFail _)]
        change told (σ1.out ++ [.blockFailure n w]) = _
        rw [told_append, b3]
        rfl
  obtain ⟨c1, c2, c3⟩ := key
  obtain ⟨d1, os', d2, d3⟩ := releaseLost_only _ _ _ h4
  have hL : n ∉ (σ.book.filter (fun e => p e.1)).map (·.2.block) := by
    intro hm
    obtain ⟨e, he, hb⟩ := List.mem_map.1 hm
    have := ((order_of_inv hg h2).2.2 n hn e.2.stream).1 ⟨e, List.mem_of_mem_filter he, hb, rfl⟩
    rw [c1.holder, b2] at this
    cases this
  have d4 : told x'.srv.out = told σ.out := by
    rw [h3, told_noFail (late_noFail (g := g) σ' _)]
    exact told_noFail d1
  refine ⟨?_, fun e => d4.trans (c2 e), fun w e => d4.trans (c3 w e)⟩
  have d5 : evs x'.srv.out = evs σ'.out := by
    rw [h3]
    split
    · exact (checkAll_frame σ').evs
    · rfl
  rw [d5, d2, evs_append, List.count_append, count_bad_only d3 hL]
  change (evs σ.out).count _ + 0 = _
  rw [c1.evs, b1, List.count_append]
  simp

/-- C120: an exception in the queue of the `TCPServer` that is not `StreamClosedError` ends the run: after at most as many
iterations as there are exceptions in front of it, the next iteration raises it.  Whatever else happens, no execution goes on
for longer. -/
theorem C120_ends {i : Nat} {e : PyErr} (he : x.excs[i]? = some (.other e)) {ks' : List (FineTick N T S)}
    {y : FineSrv N T K S} (h : FineSteps g cfg x ks' y) :
    ks'.length ≤ i ∧ (ks'.length = i → ∀ k, y.iteration g cfg k = .error e) := by
  have key : ∃ j, y.excs[j]? = some (.other e) ∧ j + ks'.length = i := by
    induction h with
    | nil => exact ⟨i, he, rfl⟩
    | step k h hs hk hit ih =>
      rename_i ks1 y1 y2
      obtain ⟨j, h1, h2⟩ := ih
      obtain ⟨l, h3⟩ := ioRun_excs k.io0 y1
      have h4 : (y1.ioRun k.io0).excs[j]? = some (.other e) := by
        rw [h3, List.getElem?_append_left (List.getElem?_eq_some_iff.1 h1).1]
        exact h1
      cases j with
      | zero =>
        exfalso
        obtain ⟨r, hr⟩ : ∃ r, (y1.ioRun k.io0).excs = .other e :: r := by
          cases hz : (y1.ioRun k.io0).excs with
          | nil => rw [hz] at h4; cases h4
          | cons a r => rw [hz] at h4; cases h4; exact ⟨r, rfl⟩
        rw [(fine_cases (g := g) (cfg := cfg) y1 k).1 e r hr] at hit
        cases hit
      | succ j =>
        obtain ⟨l', h5⟩ := iteration_excs hit
        refine ⟨j, ?_, by rw [List.length_append, List.length_singleton]; omega⟩
        have h6 : (y1.ioRun k.io0).excs.tail[j]? = some (.other e) := by rw [List.getElem?_tail]; exact h4
        rw [h5, List.getElem?_append_left (List.getElem?_eq_some_iff.1 h6).1]
        exact h6
  obtain ⟨j, h1, h2⟩ := key
  refine ⟨by omega, fun hlen k => ?_⟩
  obtain ⟨l, h3⟩ := ioRun_excs k.io0 y
  have hj : j = 0 := by omega
  subst hj
  cases hz : y.excs with
  | nil => rw [hz] at h1; cases h1
  | cons a r =>
    rw [hz] at h1
    cases h1
    refine (fine_cases (g := g) (cfg := cfg) y k).1 e (r ++ l) ?_
    rw [h3, hz]
    rfl

/-- C120: until then, the block stays with the client that has failed to process it, unless its connection is lost: it
neither fails nor is it tried again. -/
theorem C120_stays (hg : g.Loose) (hserved : ∀ n ∈ g.nodes, g.task n ∈ cfg.served) (h : FineRun g cfg ks x) {n : N} {s : S}
    (hs : holder x.srv.out n = some s) (hpc : (x.links s).pc = .over) (hq : fromStream s x.queue = [])
    {ks' : List (FineTick N T S)} {y : FineSrv N T K S} (h' : FineSteps g cfg x ks' y) (ho : ¬ Shut (y.links s)) :
    holder y.srv.out n = some s := by
  obtain ⟨i1, i2⟩ := h.inv hg hserved
  suffices hz : (y.links s).pc = .over ∧ fromStream s y.queue = [] ∧ (¬ Shut (y.links s) → holder y.srv.out n = some s)
    from hz.2.2 ho
  clear ho
  induction h' with
  | nil => exact ⟨hpc, hq, fun _ => hs⟩
  | step k h' hst hk he ih =>
    rename_i ks1 y1 y2
    obtain ⟨a1, a2, a3⟩ := ih
    obtain ⟨j1, j2⟩ := h'.inv hg hserved i1 i2
    obtain ⟨r, σ, p, σ', hr, _, _, _, _, _, _, _, _, _, _, hl, _⟩ := fine_ok hg hserved j1 j2 hk he
    have hmem : ∀ {q : List (Msg N T × S)} {m : Msg N T}, fromStream s q = [] → (m, s) ∉ q := by
      intro q m hq hm
      have : m ∈ fromStream s q := List.mem_map.2 ⟨(m, s), List.mem_filter.2 ⟨hm, by simp⟩, rfl⟩
      rw [hq] at this
      cases this
    have b1 : (y2.links s).pc = .over := by rw [hl]; exact over_mono _ a1
    refine ⟨b1, ?_, ?_⟩
    · exact iteration_over he a1 a2
    · intro hns
      have hns1 : ¬ Shut (y1.links s) := by
        intro hc
        rw [hl] at hns
        exact hns (shut_mono _ hc)
      by_contra hcon
      refine hns ((fine_lost hg hserved j1 j2 hk he n s).1 (a3 hns1) hcon ?_)
      rintro m s' hg' rfl
      have := List.mem_of_mem_head? hg'.2
      exact hmem (by rw [over_queue _ a1]; exact a2) this

/-- C120: so if the counters of orphans are exact (C22) and no client has two blocks (C117), the server does not end by
itself before it raises the exception. -/
theorem C120_not_over_partial (hg : g.Loose) (hserved : ∀ n ∈ g.nodes, g.task n ∈ cfg.served) (h : FineRun g cfg ks x)
    {n : N} {s : S} (hs : holder x.srv.out n = some s) (hpc : (x.links s).pc = .over) (hq : fromStream s x.queue = [])
    {ks' : List (FineTick N T S)} {y : FineSrv N T K S} (h' : FineSteps g cfg x ks' y) (ho : ¬ Shut (y.links s))
    (hr : ∃ ks₁, SRun g cfg ks₁ y.srv) (hx : OrphanExact g (evs y.srv.out)) : y.srv.stop = false := by
  obtain ⟨ks₁, hr⟩ := hr
  by_contra hc
  have := ((C34_stop_means_finished_partial hg hr hx).1 (by simpa using hc)).2 n
  rw [C120_stays hg hserved h hs hpc hq h' ho] at this
  cases this

/-- In this iteration the IO loop does `io` before the event loop looks for messages, and nothing else. -/
def Spec.OnlyIo (k : FineTick N T S) (io : List (SrvIo N T S)) : Prop :=
  k.io0 = io ∧ k.io1 = [] ∧ ∀ i, k.look i = ⟨[], [], []⟩

/-- **C120, full statement.**  User code raises an `Exception` while it processes block `n`, whatever exception it is; the
client hands its messages to the IO loop, and the IO loop of the server reads them.  Then the event loop goes on, one more
failed attempt of the block is counted, and observers are told of it. -/
def C120_statement : Prop :=
  ∀ (N T K S : Type) [DecidableEq N] [DecidableEq T] [DecidableEq K] [DecidableEq S] (g : DGraph N T K) (cfg : SConf T),
    g.OK → (∀ n ∈ g.nodes, g.task n ∈ cfg.served) →
    ∀ (fate : ClientErr → Fate) (w : Nat) (c : TcpClient N T) (body : BodyEnd) (e : ClientErr)
      (ks : List (FineTick N T S)) (x : FineSrv N T K S) (k : FineTick N T S) (n : N) (s : S),
      Online c → c.outbox = [] → body.raised = some e → e.isException = true →
      FineRun g cfg ks x → x.queue = [] → x.excs = [] → (x.links s).pc = .reading → holder x.srv.out n = some s →
      FineLegal g k → OnlyIo k (wire fate w s (Client.leave c n body [] []).2.outbox) →
      ∃ x', x.iteration g cfg k = .ok x' ∧
        (evs x'.srv.out).count (Ev.bad n) = (evs x.srv.out).count (Ev.bad n) + 1 ∧
        told x'.srv.out = told x.srv.out ++ [(n, w)]

/-- C120, what happens for each kind of exception. -/
theorem C120_outcome (hg : g.Loose) (hserved : ∀ n ∈ g.nodes, g.task n ∈ cfg.served) (fate : ClientErr → Fate) (w : Nat)
    {c : TcpClient N T} {body : BodyEnd} {e : ClientErr} {n : N} {s : S} (hc : Online c) (hout : c.outbox = [])
    (hr : body.raised = some e) (hee : e.isException = true) (h : FineRun g cfg ks x) (hq : x.queue = [])
    (hx : x.excs = []) (hpc : (x.links s).pc = .reading) (hs : holder x.srv.out n = some s) (hk : FineLegal g k)
    (hio : OnlyIo k (wire fate w s (Client.leave c n body [] []).2.outbox)) :
    match fate e with
    | .fine => ∃ x', x.iteration g cfg k = .ok x' ∧
        (evs x'.srv.out).count (Ev.bad n) = (evs x.srv.out).count (Ev.bad n) + 1 ∧
        told x'.srv.out = told x.srv.out ++ [(n, w)]
    | .unsent => ∃ x', x.iteration g cfg k = .ok x' ∧
        (evs x'.srv.out).count (Ev.bad n) = (evs x.srv.out).count (Ev.bad n) + 1 ∧
        told x'.srv.out = told x.srv.out
    | .unread e' => x.iteration g cfg k = .error e' := by
  obtain ⟨i0, i1, i2⟩ := hio
  rw [(C120_sent hc n hr hee (by intro _ h; cases h) (by intro _ h; cases h)).2, hout, List.nil_append] at i0
  have hcalm : ∀ book, ¬ Caught x k book := C117_calm (fun i => by rw [i2 i])
  have hrun : ∀ m, Gets x k (.msg m s) → (m = .release n .failed ∨ ∃ w, m = .blockFailed n w) →
      ∃ x', x.iteration g cfg k = .ok x' := by
    intro m hg' hm
    cases hit : x.iteration g cfg k with
    | ok x' => exact ⟨x', rfl⟩
    | error err =>
      exfalso
      rcases (C117_raises_iff hg hserved h hk).1 ⟨err, hit⟩ with ⟨e1, r, h1⟩ | ⟨r, h1, h2⟩ | ⟨r, σ, _, _, h3⟩
      · rw [hg'.1] at h1; cases h1
      · have := gets_unique h1 hg'
        subst this
        rcases hm with rfl | ⟨w, rfl⟩
        · exact h2.2.2 rfl
        · exact h2
      · exact hcalm _ h3
  cases hf : fate e with
  | fine =>
    have hw : k.io0 = [.arrive (.blockFailed n w) s, .arrive (.release n .failed) s] := by
      rw [i0]; simp [wire, wireMsg, hf]
    have hy : x.ioRun k.io0 =
        { x with queue := [(.blockFailed n w, s), (.release n .failed, s)] } := by
      rw [hw]
      simp only [ioRun, List.foldl_cons, List.foldl_nil, ioStep, hpc, if_true, hq]
      rfl
    have hgets : Gets x k (.msg (.blockFailed n w) s) := by
      refine ⟨by rw [hy]; exact hx, ?_⟩
      rw [i1, List.append_nil, hy]
      rfl
    obtain ⟨x', hx'⟩ := hrun _ hgets (Or.inr ⟨w, rfl⟩)
    obtain ⟨a1, _, a2⟩ := C120_counted hg hserved h hk hs (Or.inr ⟨w, rfl⟩) hgets hx'
    exact ⟨x', hx', a1, a2 w rfl⟩
  | unsent =>
    have hw : k.io0 = [.arrive (.release n .failed) s] := by
      rw [i0]; simp [wire, wireMsg, hf]
    have hy : x.ioRun k.io0 = { x with queue := [(.release n .failed, s)] } := by
      rw [hw]
      simp only [ioRun, List.foldl_cons, List.foldl_nil, ioStep, hpc, if_true, hq]
      rfl
    have hgets : Gets x k (.msg (.release n .failed) s) := by
      refine ⟨by rw [hy]; exact hx, ?_⟩
      rw [i1, List.append_nil, hy]
      rfl
    obtain ⟨x', hx'⟩ := hrun _ hgets (Or.inl rfl)
    obtain ⟨a1, a2, _⟩ := C120_counted hg hserved h hk hs (Or.inl rfl) hgets hx'
    exact ⟨x', hx', a1, a2 rfl⟩
  | unread e' =>
    have hw : k.io0 = [.bad s e', .put s, .arrive (.release n .failed) s] := by
      rw [i0]; simp [wire, wireMsg, hf]
    refine (fine_cases (g := g) (cfg := cfg) x k).1 e' [] ?_
    have ha : x.ioStep (.bad s e') = x.setLink s { x.links s with pc := .raising (.other e') } := by
      simp only [ioStep, hpc, if_true]
    rw [hw]
    simp only [ioRun, List.foldl_cons, List.foldl_nil, ha]
    simp [ioStep, setLink, upd, hx]

/-- C120 for exceptions that can be pickled and unpickled.  Partial: for these only, see `C120_false`. -/
theorem C120_partial (hg : g.Loose) (hserved : ∀ n ∈ g.nodes, g.task n ∈ cfg.served) (fate : ClientErr → Fate) (w : Nat)
    {c : TcpClient N T} {body : BodyEnd} {e : ClientErr} {n : N} {s : S} (hc : Online c) (hout : c.outbox = [])
    (hr : body.raised = some e) (hee : e.isException = true) (h : FineRun g cfg ks x) (hq : x.queue = [])
    (hx : x.excs = []) (hpc : (x.links s).pc = .reading) (hs : holder x.srv.out n = some s) (hk : FineLegal g k)
    (hio : OnlyIo k (wire fate w s (Client.leave c n body [] []).2.outbox)) (hf : fate e = .fine) :
    ∃ x', x.iteration g cfg k = .ok x' ∧
        (evs x'.srv.out).count (Ev.bad n) = (evs x.srv.out).count (Ev.bad n) + 1 ∧
        told x'.srv.out = told x.srv.out ++ [(n, w)] := by
  have := C120_outcome hg hserved fate w hc hout hr hee h hq hx hpc hs hk hio
  rw [hf] at this
  exact this

/-- C120: if no failure message is ever sent, because no exception can be pickled, no failure is ever counted for a worker,
and so no worker is ever replaced because of its failures (`task_worker_pools.py` 51-71); observers are told of none. -/
theorem C120_mute {c : SysConf T} {P : Sys N T K S → SysEv N T S → Prop} {es : List (SysEv N T S)} {y : Sys N T K S}
    (h : SysRun g c P es y) (hm : Mute es) :
    told y.srv.out = [] ∧ ∀ t id, y.pools.counts t id = 0 :=
  (mute_run h hm).2

/-- C120: in that case the printed summary lists no failures, however many blocks have failed. -/
theorem C120_mute_report (hg : g.OK) {c : SysConf T} (hnd : c.cfg.served.Nodup) {P : Sys N T K S → SysEv N T S → Prop}
    (hP : ∀ x e, P x e → FromWorkers g x e) {es : List (SysEv N T S)} {y : Sys N T K S} (h : SysRun g c P es y)
    (hm : Mute es) (name : T → String) (hname : Function.Injective name) (st : Nat → TState) {now : String → TState}
    {t : T} (hnow : now (name t) = y.srv.sched.states t) {m : Monitor N}
    (hmon : (Monitor.init : Monitor N).run (monEvs g name st y.srv.out) = .ok m) {r : Monitor.Report N}
    (hr : m.report now (name t) = some r) :
    r.failures = [] ∧ r.more = 0 ∧ r.failed = cnt g t (Dead g (evs y.srv.out)) := by
  have h1 := (C100_report hg hnd hP h name hname st hnow hmon hr).1
  have h2 : reported g t y.srv.out = [] := by
    have h3 := (C120_mute h hm).1
    unfold told at h3
    rw [List.filterMap_eq_nil_iff] at h3
    unfold reported
    rw [List.filterMap_eq_nil_iff]
    intro o ho
    have := h3 o ho
    cases o <;> first | rfl | cases this
  rw [h2] at h1
  have h3 := h1.listed.1
  have h4 : r.failures = [] := List.eq_nil_of_prefix_nil h3
  have h5 := h1.more
  rw [h4] at h5
  simp only [List.length_nil, Nat.zero_add] at h5
  exact ⟨h4, h5, h1.failed⟩

namespace Ex.Raised

open Ex.Between

/-- Client 7 has got block 0. -/
def started : List (FineTick (Fin 2) (Fin 1) Nat) := [ftick [.arrive (.acquire 0) 7]]

/-- A client that is connected. -/
def client : TcpClient (Fin 2) (Fin 1) := ⟨[], true, true, [], []⟩

/-- User code has raised an exception. -/
def body : BodyEnd := ⟨.enum .processing, some (.exception "MyError")⟩

/-- The iteration in which the messages come. -/
def now (fate : ClientErr → Fate) : FineTick (Fin 2) (Fin 1) Nat where
  io0 := wire fate 3 7 (Client.leave client 0 body [] []).2.outbox
  io1 := []
  look := fun _ => ⟨[], [], []⟩
  chk := fun _ _ => .reject
  pick := pickMin
  now := 0
  pickLost := fun _ => pickMin
  late := false

theorem now_legal (fate : ClientErr → Fate) : FineLegal graph (now fate) := by
  refine ⟨?_, pickMin_legal, fun _ => pickMin_legal⟩
  intro m s _
  cases m <;> first | trivial | exact fun n' _ h => h

theorem started_run : ∃ x : FineSrv (Fin 2) (Fin 1) (Fin 2) Nat, FineRun graph conf started x ∧ x.queue = [] ∧
    x.excs = [] ∧ (x.links 7).pc = .reading ∧ holder x.srv.out 0 = some 7 ∧ told x.srv.out = [] := by
  have hx : (fineExec graph conf started (FineSrv.init graph)).map (fun x =>
      decide (x.queue = [] ∧ x.excs = [] ∧ (x.links 7).pc = .reading ∧ holder x.srv.out 0 = some 7 ∧
        told x.srv.out = [])) = some true := by decide +kernel
  obtain ⟨x, h, e⟩ := fineExec_run _ started [] _
    (by intro k hk; rw [List.mem_singleton.1 hk]; exact legal _ _ _ _) .init hx
  exact ⟨x, h, of_decide_eq_true e⟩

end Ex.Raised

open Ex.Between Ex.Raised in
/-- The hypotheses of the theorems above hold in an execution, for every kind of exception. -/
example (f : Fate) : ∃ x : FineSrv (Fin 2) (Fin 1) (Fin 2) Nat, graph.OK ∧ FineRun graph conf started x ∧
    Online client ∧ client.outbox = [] ∧ body.raised = some (.exception "MyError") ∧ x.queue = [] ∧ x.excs = [] ∧
    (x.links 7).pc = .reading ∧ holder x.srv.out 0 = some 7 ∧ FineLegal graph (now (fun _ => f)) ∧
    OnlyIo (now (fun _ => f)) (wire (fun _ => f) 3 7 (Client.leave client 0 body [] []).2.outbox) := by
  obtain ⟨x, h, h1, h2, h3, h4, _⟩ := started_run
  exact ⟨x, graph_ok, h, ⟨rfl, rfl, rfl⟩, rfl, rfl, h1, h2, h3, h4, now_legal _, rfl, rfl, fun _ => rfl⟩

open Ex.Between Ex.Raised in
/-- **The full claim is false**: an exception that cannot be unpickled at the server ends the run of all tasks. -/
theorem C120_false : ¬ C120_statement := by
  intro hC
  obtain ⟨x, h, h1, h2, h3, h4, _⟩ := started_run
  obtain ⟨x', hx, _⟩ := hC _ _ _ Nat graph conf graph_ok (by decide) (fun _ => .unread .typeError) 3 client body
    (.exception "MyError") started x (now fun _ => .unread .typeError) 0 7 ⟨rfl, rfl, rfl⟩ rfl rfl rfl h h1 h2 h3 h4 (now_legal _)
    ⟨rfl, rfl, fun _ => rfl⟩
  have := C120_outcome (g := graph) (cfg := conf) graph_ok (by decide) (fun _ => .unread .typeError) 3
    (c := client) (body := body) (e := .exception "MyError") (n := 0) (s := 7) ⟨rfl, rfl, rfl⟩ rfl rfl rfl h h1 h2 h3 h4
    (now_legal fun _ => .unread .typeError) ⟨rfl, rfl, fun _ => rfl⟩
  simp only at this
  rw [this] at hx
  cases hx

open Ex.Between Ex.Raised in
/-- And of an exception that cannot be pickled nobody is told. -/
theorem C120_false_silent : ∃ x x' : FineSrv (Fin 2) (Fin 1) (Fin 2) Nat, FineRun graph conf started x ∧
    holder x.srv.out 0 = some 7 ∧ x.iteration graph conf (now (fun _ => .unsent)) = .ok x' ∧
    (evs x'.srv.out).count (Ev.bad 0) = (evs x.srv.out).count (Ev.bad 0) + 1 ∧ told x'.srv.out = [] := by
  obtain ⟨x, h, h1, h2, h3, h4, h5⟩ := started_run
  have := C120_outcome (g := graph) (cfg := conf) graph_ok (by decide) (fun _ => .unsent) 3
    (c := client) (body := body) (e := .exception "MyError") (n := 0) (s := 7) ⟨rfl, rfl, rfl⟩ rfl rfl rfl h h1 h2 h3 h4
    (now_legal fun _ => .unsent) ⟨rfl, rfl, fun _ => rfl⟩
  obtain ⟨x', a1, a2, a3⟩ := this
  exact ⟨x, x', h, h4, a1, a2, by rw [a3, h5]⟩

namespace Ex.Raised

/-- The only worker fails six times, with exceptions that cannot be pickled. -/
def silent : List (SysEv (Fin 1) (Fin 1) Nat) :=
  ((List.replicate 6 ([.msg (.acquire 0) 0, .loop [] [], .msg (.release 0 .failed) 0, .loop [] []] :
    List (SimpleEv (Fin 1) (Fin 1) Nat))).flatten).map SimpleEv.ev

/-- Requests come after the task was started; failures are not reported. -/
def muteB (x : Sys (Fin 1) (Fin 1) (Fin 1) Nat) : SysEv (Fin 1) (Fin 1) Nat → Bool
  | .arrive (.acquire t) _ => decide (.taskStart t ∈ x.srv.out)
  | .arrive (.blockFailed _ _) _ => false
  | _ => true

theorem muteB_workers (x : Sys (Fin 1) (Fin 1) (Fin 1) Nat) (e : SysEv (Fin 1) (Fin 1) Nat) (h : muteB x e = true) :
    FromWorkers Ex.one x e := by
  cases e with
  | arrive m s =>
    cases m with
    | acquire t => exact Or.inl (of_decide_eq_true h)
    | blockFailed n w => cases h
    | _ => trivial
  | _ => trivial

end Ex.Raised

open Ex.Raised in
/-- A run in which the only worker fails six times in a row with exceptions that cannot be pickled.  The block has failed
for good, and the run is over; the worker, which should be replaced after four failures, is still the first one, and the
summary lists no failure. -/
theorem C120_false_report : ∃ y : Sys (Fin 1) (Fin 1) (Fin 1) Nat,
    SysRun Ex.one Ex.oneConf (FromWorkers Ex.one) silent y ∧ Mute silent ∧ y.srv.stop = true ∧
    Dead Ex.one (evs y.srv.out) 0 ∧ Running y.pools 0 0 ∧
    ∀ (name : Fin 1 → String) (st : Nat → TState) (now : String → TState), now (name 0) = y.srv.sched.states 0 →
      ∃ m r, (Monitor.init : Monitor (Fin 1)).run (monEvs Ex.one name st y.srv.out) = .ok m ∧
        m.report now (name 0) = some r ∧ r.failed = 1 ∧ r.failures = [] := by
  have hx : (sysExec Ex.one Ex.oneConf muteB silent).map (fun r =>
      decide (r.1.srv.stop = true ∧ Dead Ex.one (evs r.1.srv.out) 0 ∧ .taskStart 0 ∈ r.1.srv.out ∧
        (r.1.srv.sched.states 0).failed = 1 ∧
        r.1.pools.pools = [(0, ⟨[⟨0, some .running⟩], []⟩)])) = some true := by
    decide +kernel
  obtain ⟨y, ns, h, _, e⟩ := sysExec_run muteB_workers (simple_legal _) _ hx
  obtain ⟨e1, e2, e3, e4, e5⟩ := of_decide_eq_true e
  have hmute : Mute silent := by
    intro n w s hm
    have : ∀ e ∈ silent, (match e with
        | .arrive (.blockFailed _ _) _ => false
        | _ => true) = true := by
      rw [← List.all_eq_true]
      rfl
    cases this _ hm
  refine ⟨y, h, hmute, e1, e2, ⟨_, by rw [e5]; exact List.mem_singleton.2 rfl, _, List.mem_singleton.2 rfl, rfl, rfl⟩, ?_⟩
  intro name st now hnow
  have hname : Function.Injective name := fun a b _ => Subsingleton.elim a b
  have hnd : Ex.oneConf.cfg.served.Nodup := by decide
  obtain ⟨m, hm, hl⟩ := C100_listed Ex.one_ok hnd (fun _ _ h => h) h name hname st now 0
  obtain ⟨r, hr⟩ := Option.ne_none_iff_exists'.1 (hl.2 (Or.inl e3))
  obtain ⟨a1, _, a2⟩ := C120_mute_report Ex.one_ok hnd (fun _ _ h => h) h hmute name hname st hnow hm hr
  refine ⟨m, r, hm, hr, ?_, a1⟩
  have hb := (C100_report Ex.one_ok hnd (fun _ _ h => h) h name hname st hnow hm hr).1.failed
  obtain ⟨ks, hs⟩ := h.srun
  have hrun := (hs.inv Ex.one_ok).run
  obtain ⟨_, _, _, _, h5, _⟩ := C19_counters_partial Ex.one_ok hrun 0
  rw [hb, ← h5]
  exact e4

end Verif
