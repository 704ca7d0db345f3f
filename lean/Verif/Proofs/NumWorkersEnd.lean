import Verif.Proofs.NumWorkers
import Verif.Props.ServerEnd
import Verif.Props.SystemWork

/-! # An execution in which workers do all the work -/

set_option linter.unusedSectionVars false

namespace Verif

open Spec

variable {N T K S : Type} [DecidableEq N] [DecidableEq T] [DecidableEq K] [DecidableEq S]
  {g : DGraph N T K} {c : SysConf T} {es : List (SysEv N T S)}
  {x y : Sys N T K S} {σ σ' : Server N T K S} {cfg : SConf T}

/-- Messages come from workers of the task, workers do not leave their pool early, and no exceptions are reported. -/
def Diligent (g : DGraph N T K) (x : Sys N T K S) (e : SysEv N T S) : Prop :=
  OwnWorkers g x e ∧ Coop g x e ∧ NoReports e

theorem plain_keeps {pick : Nat → Finset N → N} (hg : g.Loose) (hp : LegalPick pick) {recv : Server.Recv N T S} {late : Bool} {σ1 : Server N T K S}
    (hI : SInv g σ1) (h1 : σ.handleMessages g cfg (fun _ _ => .reject) pick 0 recv = .ok σ1)
    (he : σ.iteration g cfg (plainTick pick recv late) = .ok σ') : σ'.pending = σ1.pending := by
  obtain ⟨σ1', σ2, a1, a2, a3⟩ := iteration_split he
  have a1 : σ.handleMessages g cfg (fun _ _ => .reject) pick 0 recv = .ok σ1' := a1
  rw [h1] at a1
  cases a1
  obtain ⟨σ2', os, L, c1, _, _, c2, _⟩ := checkLost_ok hg hI (pick := fun _ => pick)
    (fun _ => hp) (fun _ => false) (fun _ => 0)
  have a2 : σ1.checkLost g (fun _ => pick) (fun _ => false) (fun _ => 0) = .ok σ2 := a2
  rw [c1] at a2
  cases a2
  rw [a3, ← c2]
  split
  · exact (checkAll_frame _).pending
  · rfl

/-- A held block is given back. -/
theorem hand_in (hg : g.Loose) (h : SInv g σ) {pick : Nat → Finset N → N} (hp : LegalPick pick) {n : N} {s : S}
    (hn : holder σ.out n = some s) :
    ∃ σ', σ.iteration g cfg (plainTick pick (.msg (.release n .success) s) false) = .ok σ' ∧
      evs σ'.out = evs σ.out ++ [.good n] ∧ σ'.pending = σ.pending := by
  obtain ⟨⟨hgm, _⟩, σ', h1, h2⟩ := finish_release (cfg := cfg) hg h hp hn
  refine ⟨σ', h1, h2, ?_⟩
  obtain ⟨σ1, g1, g2⟩ := handleMessages_ok hg h _ hgm (fun _ _ => .reject) hp 0
  rw [plain_keeps hg hp g2 g1 h1]
  obtain ⟨σ3, r1, _, r3, _⟩ := safeRelease_spec hg h (h.toSCore.mem hg (n := n) (by rw [hn]; simp)) (s := s)
    (Or.inl rfl) hp
  simp only [Server.handleMessages, Server.handle, plainTick, r1] at g1
  cases g1
  rw [(checkAll_frame _).pending, r3]

/-- A ready block is handed out. -/
theorem take_one (hg : g.OK) (h : SInv g σ) {pick : Nat → Finset N → N} (hp : LegalPick pick) {m : N} (s : S)
    (hm : Ready g (evs σ.out) m) (ht : g.task m ∈ cfg.served) :
    ∃ σ' n, σ.iteration g cfg (plainTick pick (.msg (.acquire (g.task m)) s) false) = .ok σ' ∧
      evs σ'.out = evs σ.out ++ [.hand n] ∧ σ'.pending = σ.pending ∧ g.task n = g.task m := by
  obtain ⟨⟨hgm, _⟩, σ', n, h1, h2⟩ := finish_acquire (cfg := cfg) hg h hp s hm ht
  obtain ⟨σ1, g1, g2⟩ := handleMessages_ok hg h _ hgm (fun _ _ => .reject) hp 0
  have hpl := plain_iteration (cfg := cfg) hg h hp hgm false
  obtain ⟨σ1', σ'', e1, e2, e3⟩ := hpl
  have e1' : σ.handleMessages g cfg (fun _ _ => .reject) pick 0 (.msg (.acquire (g.task m)) s) = .ok σ1 := g1
  rw [show (plainTick pick (.msg (.acquire (g.task m)) s) false : Server.Tick N T S).recv =
    .msg (.acquire (g.task m)) s from rfl] at e1 e2
  rw [e1'] at e1
  cases e1
  rw [h1] at e2
  cases e2
  obtain ⟨σ3, skips, r, a1, a2, a3, a4⟩ := handleAcquire_spec (cfg := cfg) hg h (fun _ _ => .reject) 0 s ht
  simp only [Server.handleMessages, Server.handle, a1] at e1'
  cases e1'
  rw [(checkAll_frame (g := g) σ3).evs] at e3
  have hpend := plain_keeps hg hp g2 g1 h1
  rw [(checkAll_frame (g := g) σ3).pending] at hpend
  cases r with
  | none =>
    exfalso
    have hsk : skips = [] := by
      obtain ⟨skips', r', st', b1, _, b3, _⟩ := C25_loose hg h.run (fun _ _ => .reject) (g.task m)
      rw [a3] at b1
      cases b1
      cases skips with
      | nil => rfl
      | cons x l => cases (b3 0 x rfl).1
    subst hsk
    have := (skips_task hg h.run a3).2.1 rfl m rfl
    simp at this
    exact this hm
  | some n' =>
    obtain ⟨b1, b2, _, _, b6, _⟩ := a4
    refine ⟨σ', n', h1, ?_, hpend.trans b2, b6⟩
    have hsk : skips = [] := by
      obtain ⟨skips', r', st', d1, _, d3, _⟩ := C25_loose hg h.run (fun _ _ => .reject) (g.task m)
      rw [a3] at d1
      cases d1
      cases skips with
      | nil => rfl
      | cons x l => cases (d3 0 x rfl).1
    subst hsk
    rw [e3, b1]
    simp [evs, toEv]

/-- Nothing is on its way. -/
structure Resting (x : Sys N T K S) : Prop where
  queue : x.queue = []
  errs : x.errs = 0
  closed : x.closed = []
  pending : ∀ t, x.srv.pending t = []

/-- An iteration in which nothing else happens. -/
def plainEnv (pick : Nat → Finset N → N) (late : Bool) : LoopEnv N T S :=
  ⟨fun _ _ => .reject, pick, 0, fun _ => 0, fun _ => pick, late, [], []⟩

theorem out_prefix {k : LoopEnv N T S} (h : x.step g c (.loop k) = .ok y) : x.srv.out <+: y.srv.out := by
  obtain ⟨os, e, _⟩ := iteration_fails (loop_iteration h)
  exact ⟨os, e.symm⟩

/-- The message of a worker is handled. -/
theorem handled (hg : g.Loose) (hnd : c.cfg.served.Nodup) (hserved : ∀ n ∈ g.nodes, g.task n ∈ c.cfg.served)
    (h : SysRun g c (Diligent g) es x) (hr : Resting x) (hs : x.srv.stop = false) {pick : Nat → Finset N → N}
    (hp : LegalPick pick) {m : Msg N T} {s : S} (hm : GoodMsg g c.cfg m) (ho : ∀ t, About g t m → Manned x.pools t)
    (hnf : ∀ n w, m ≠ .blockFailed n w)
    (he : x.srv.iteration g c.cfg (plainTick pick (.msg m s) false) = .ok σ') (hpend : σ'.pending = x.srv.pending) :
    ∃ es' y, SysRun g c (Diligent g) (es ++ es') y ∧ Resting y ∧ y.srv = σ' ∧ x.srv.out <+: y.srv.out := by
  have h1 : SysRun g c (Diligent g) (es ++ [.arrive m s]) { x with queue := x.queue ++ [(m, s)] } :=
    .step _ h ⟨by rw [hr.closed]; simp, hm⟩ ⟨ho, trivial, trivial⟩ rfl
  have hq : x.queue ++ [(m, s)] = [(m, s)] := by rw [hr.queue]; rfl
  have hrecv : ({ x with queue := x.queue ++ [(m, s)] } : Sys N T K S).recv = (.msg m s, [], 0) := by
    simp [Sys.recv, hr.errs, hr.queue]
  have hl : LegalEv g c { x with queue := x.queue ++ [(m, s)] } (.loop (plainEnv pick false) : SysEv N T S) :=
    ⟨hs, hp, fun _ => hp⟩
  have hd : Diligent g { x with queue := x.queue ++ [(m, s)] } (.loop (plainEnv pick false) : SysEv N T S) := by
    refine ⟨trivial, ⟨fun t id hm => (by cases hm), ?_⟩, fun p hp => (by cases hp)⟩
    intro n w s' hc
    rw [hrecv] at hc
    cases hc
    exact absurd rfl (hnf n w)
  obtain ⟨y, hy⟩ := C68_never_raises hg hnd hserved (fun _ _ hP => hP.2.2) h1 hl hd
  obtain ⟨ps, _, _, q2, q3, q4⟩ := loop_parts hy
  have hct : ({ x with queue := x.queue ++ [(m, s)] } : Sys N T K S).closedThen (plainEnv pick false) = [] := by
    simp [Sys.closedThen, plainEnv, hr.closed]
  have hsrv : y.srv = σ' := by
    have := loop_iteration hy
    rw [show ({ x with queue := x.queue ++ [(m, s)] } : Sys N T K S).tickOf (plainEnv pick false) =
      plainTick pick (.msg m s) false by
        simp only [Sys.tickOf, plainTick, hct, hrecv]
        simp [plainEnv]] at this
    change x.srv.iteration g c.cfg _ = _ at this
    rw [he] at this
    cases this
    rfl
  refine ⟨[.arrive m s, .loop (plainEnv pick false)], y, by simpa using SysRun.step _ h1 hl hd hy, ?_, hsrv,
    out_prefix (x := { x with queue := x.queue ++ [(m, s)] }) hy⟩
  refine ⟨by rw [q3, hrecv], by rw [q4, hrecv, hct]; simp, by rw [q2, hct], ?_⟩
  intro t
  rw [hsrv, hpend]
  exact hr.pending t

/-- Nothing happens, except that the tasks are checked. -/
theorem last_look (hg : g.Loose) (hnd : c.cfg.served.Nodup) (hserved : ∀ n ∈ g.nodes, g.task n ∈ c.cfg.served)
    (h : SysRun g c (Diligent g) es x) (hr : Resting x) (hs : x.srv.stop = false) {pick : Nat → Finset N → N}
    (hp : LegalPick pick) (hd : ∀ n ∈ g.nodes, Done (evs x.srv.out) n) (hnb : ∀ n, .bad n ∉ evs x.srv.out)
    (hnh : ∀ n, holder x.srv.out n = none) :
    ∃ es' y, SysRun g c (Diligent g) (es ++ es') y ∧ y.srv.stop = true ∧ evs y.srv.out = evs x.srv.out := by
  have hl : LegalEv g c x (.loop (plainEnv pick true) : SysEv N T S) := ⟨hs, hp, fun _ => hp⟩
  have hrecv : x.recv = (.nothing, [], 0) := by simp [Sys.recv, hr.errs, hr.queue]
  have hdl : Diligent g x (.loop (plainEnv pick true) : SysEv N T S) := by
    refine ⟨trivial, ⟨fun t id hm => (by cases hm), ?_⟩, fun p hp => (by cases hp)⟩
    intro n w s' hc
    rw [hrecv] at hc
    cases hc
  obtain ⟨y, hy⟩ := C68_never_raises hg hnd hserved (fun _ _ hP => hP.2.2) h hl hdl
  refine ⟨[_], y, SysRun.step _ h hl hdl hy, ?_⟩
  have h' := SysRun.step _ h hl hdl hy
  obtain ⟨ks', hsr'⟩ := h'.srun
  obtain ⟨ks, hsr⟩ := h.srun
  obtain ⟨σ1, σ2, a1, a2, a3⟩ := iteration_split (loop_iteration hy)
  have a1 : x.srv.handleMessages g c.cfg (fun _ _ => .reject) pick 0 x.recv.1 = .ok σ1 := a1
  have e1 : σ1 = x.srv := by
    rw [hrecv] at a1
    unfold Server.handleMessages at a1
    simp only at a1
    split at a1
    · cases a1; rfl
    · split at a1
      · cases a1; rfl
      · next t _ s rest hq => rw [hr.pending] at hq; cases hq
  subst e1
  obtain ⟨σ2', os, L, c1, _, _, c2, c3, _, c4, _, c5, _⟩ := checkLost_ok hg (hsr.inv hg) (pick := fun _ => pick)
    (fun _ => hp) (x.tickOf (plainEnv pick true)).closed (fun _ => 0)
  have a2 : x.srv.checkLost g (fun _ => pick) (x.tickOf (plainEnv pick true)).closed (fun _ => 0) = .ok σ2 := a2
  rw [c1] at a2
  cases a2
  have hL : L = [] := List.eq_nil_iff_forall_not_mem.2 (fun n hn => by
    obtain ⟨s, hc, _⟩ := (c5 n).1 hn
    rw [hnh n] at hc
    cases hc)
  have e2 : evs σ2.out = evs x.srv.out := by rw [c3, evs_append, c4, hL]; simp
  have a3 : y.srv = σ2.checkAll g := a3
  have hfr := checkAll_frame (g := g) σ2
  have e3 : evs y.srv.out = evs x.srv.out := by rw [a3, hfr.evs, e2]
  refine ⟨?_, e3⟩
  have hcs := checkAll_spec (g := g) σ2
  rw [← a3] at hcs hfr
  refine hcs.2.1.2 (Or.inr fun t _ => ?_)
  rw [← hfr.sched]
  refine (C22_loose_is_done_partial hg (hsr'.inv hg).run ?_ t).2 ?_
  · exact exact_of_one (fun n _ f f' hf _ _ _ => absurd (e3 ▸ hf.1) (hnb f))
  · rw [e3]
    exact fun n hn _ => Or.inl (hd n hn)

/-- A recruited task that is not finished has a worker. -/
theorem manned (hg : g.Loose) (hnd : c.cfg.served.Nodup) (h : SysRun g c (Diligent g) es x) {t : T}
    (ht : t ∈ c.cfg.served) (hnum : 0 < c.num t) (hr : Recruited x.srv t) : Manned x.pools t := by
  have hst := h.staff hg hnd (fun _ _ hP => hP.2.1)
  obtain ⟨pes, hq⟩ := h.poolRun
  have hkeys : x.pools.pools.map (·.1) = c.cfg.served := by
    rw [poolRun_keys (Pools.init_ok hnd).1 hq]
    simp [Pools.init, Function.comp_def]
  rw [← hkeys] at ht
  obtain ⟨⟨t, p⟩, hm, rfl⟩ := List.mem_map.1 ht
  refine ⟨p, hm, fun hc => ?_⟩
  have := (hst t p hm).2.1 hr
  rw [hc] at this
  have this : 0 = c.num t := this
  dsimp only at hnum
  omega

/-- Workers finish all blocks. -/
theorem workers_finish (hg : g.OK) (hnd : c.cfg.served.Nodup) (hserved : ∀ n ∈ g.nodes, g.task n ∈ c.cfg.served)
    (hnum : ∀ n ∈ g.nodes, 0 < c.num (g.task n)) (s : S) {pick : Nat → Finset N → N} (hp : LegalPick pick) :
    ∀ (d : Nat) (es : List (SysEv N T S)) (x : Sys N T K S), SysRun g c (Diligent g) es x → Resting x →
      (∀ n, ¬ Held (evs x.srv.out) n) → (∀ n, Ev.bad n ∉ evs x.srv.out) → (∀ n, Ev.skip n ∉ evs x.srv.out) →
      (g.nodes.map (fun n => 2 * ((g.maxRetries (g.task n)).toNat + 1) + 1)).sum - (evs x.srv.out).length ≤ d →
      ∃ (es' : List (SysEv N T S)) (y : Sys N T K S), SysRun g c (Diligent g) es' y ∧ y.srv.stop = true ∧ ∀ n, .bad n ∉ evs y.srv.out := by
  intro d
  induction d using Nat.strong_induction_on with
  | _ d ih =>
  intro es x h hr hnh hnb hns hd
  cases hs : x.srv.stop with
  | true => exact ⟨es, x, h, hs, hnb⟩
  | false =>
    obtain ⟨ks, hsr⟩ := h.srun
    have hI := hsr.inv hg
    by_cases hall : ∀ n ∈ g.nodes, Done (evs x.srv.out) n
    · obtain ⟨es', y, h1, h2, h3⟩ := last_look hg hnd hserved h hr hs hp hall hnb (fun n => by
        cases ho : holder x.srv.out n with
        | none => rfl
        | some s => exact absurd ((hI.held n).2 (by rw [ho]; simp)) (hnh n))
      exact ⟨_, y, h1, h2, by rw [h3]; exact hnb⟩
    · push Not at hall
      obtain ⟨n0, hn0, hnd0⟩ := hall
      have hdead : ∀ n, ¬ Dead g (evs x.srv.out) n := fun n hc => hnb n hc.1
      have : ∃ m, Ready g (evs x.srv.out) m := by
        by_contra hc
        push Not at hc
        obtain ⟨a, _, ha⟩ := ready_ancestor hg hnh hn0 hnd0 (hdead n0) (fun ⟨f, hf, _⟩ => hdead f hf) (hc n0)
        exact hc a ha
      obtain ⟨m, hm⟩ := this
      have hms := hserved m hm.1
      have hskip : ∀ n, .skip n ∉ x.srv.out := fun n hc => hns n (List.mem_filterMap.2 ⟨_, hc, rfl⟩)
      have hrec := C53_no_skips hg hsr hskip hm
      obtain ⟨σ1, n, a1, a2, a3, a4⟩ := take_one (cfg := c.cfg) hg hI hp s hm hms
      obtain ⟨es1, y1, b1, b2, b3, b4⟩ := handled hg hnd hserved h hr hs hp (m := .acquire (g.task m)) hms
        (fun t ht => ht ▸ manned hg hnd h hms (hnum m hm.1) hrec) (by simp) a1 a3
      subst b3
      obtain ⟨ks1, hsr1⟩ := b1.srun
      have hI1 := hsr1.inv hg
      have hbal : ∀ n, (evs x.srv.out).count (.hand n) = (evs x.srv.out).count (.good n) + (evs x.srv.out).count (.bad n) :=
        fun n => Nat.le_antisymm (Nat.le_of_not_lt (hnh n)) ((hI.run.facts hg).bal n).1
      have hheld : ∀ n', Held (evs y1.srv.out) n' ↔ n' = n := by
        intro n'
        have := hbal n'
        rw [a2]
        by_cases e : n' = n
        · subst e
          simp [Held, List.count_append, this]
        · have e' : ¬ n = n' := fun h => e h.symm
          simp [Held, List.count_append, this, e, e']
      obtain ⟨s', hs'⟩ : ∃ s', holder y1.srv.out n = some s' :=
        Option.ne_none_iff_exists'.1 ((hI1.held n).1 ((hheld n).2 rfl))
      have hnn := hI1.toSCore.mem hg (n := n) (by rw [hs']; simp)
      have hrec1 : Recruited y1.srv (g.task n) := by
        obtain ⟨ts, h1, h2⟩ := hrec
        exact ⟨ts, b4.subset h1, a4 ▸ h2⟩
      have hnb1 : ∀ n, Ev.bad n ∉ evs y1.srv.out := by
        intro n hc
        rw [a2] at hc
        rcases List.mem_append.1 hc with hc | hc
        · exact hnb n hc
        · simp at hc
      cases hs1 : y1.srv.stop with
      | true => exact ⟨_, y1, b1, hs1, hnb1⟩
      | false =>
        obtain ⟨σ2, d1, d2, d3⟩ := hand_in (cfg := c.cfg) hg hI1 hp hs'
        obtain ⟨es2, y2, f1, f2, f3, _⟩ := handled hg hnd hserved b1 b2 hs1 hp (m := .release n .success)
          ⟨hnn, Or.inl rfl⟩ (fun t ht => ht ▸ manned hg hnd b1 (hserved n hnn) (hnum n hnn) hrec1) (by simp) d1 d3
        subst f3
        have htr : evs y2.srv.out = evs x.srv.out ++ [.hand n, .good n] := by rw [d2, a2]; simp
        have hle := C24_finite_partial hg ((f1.srun).choose_spec.inv hg).run
        rw [htr, List.length_append] at hle
        refine ih _ ?_ _ y2 f1 f2 ?_ ?_ ?_ (le_refl _)
        · rw [htr, List.length_append]
          simp only [List.length_cons, List.length_nil] at hle ⊢
          omega
        · intro n'
          have := hbal n'
          rw [htr]
          by_cases e : n' = n
          · subst e
            simp [Held, List.count_append, this]
          · have e' : ¬ n = n' := fun h => e h.symm
            simp [Held, List.count_append, this, e']
        · intro n' hc
          rw [htr] at hc
          rcases List.mem_append.1 hc with hc | hc
          · exact hnb n' hc
          · simp at hc
        · intro n' hc
          rw [htr] at hc
          rcases List.mem_append.1 hc with hc | hc
          · exact hns n' hc
          · simp at hc

end Verif
