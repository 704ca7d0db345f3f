import Verif.Proofs.Resume
import Verif.Props.ServerEnd
import Verif.Spec.SerialExec
import Verif.Props.SystemWork

/-! # C105: a run can be resumed with its scheduler -/

set_option linter.unusedSectionVars false

namespace Verif

open Spec

variable {N T K S : Type} [DecidableEq N] [DecidableEq T] [DecidableEq K] [DecidableEq S]
  {g : DGraph N T K} {cfg : SConf T} {σ τ : Server N T K S}

/-- C105: an interrupted run can be resumed with its scheduler: if from then on everybody behaves, the new run comes to
its end, and then all blocks have completed except those that had failed permanently or are downstream of such a block. -/
def C105_statement : Prop :=
  ∀ (N T K S : Type) [DecidableEq N] [DecidableEq T] [DecidableEq K] [DecidableEq S] [Nonempty N] (g : DGraph N T K)
    (cfg : SConf T) (σ : Server N T K S), g.OK → (∀ n ∈ g.nodes, g.task n ∈ cfg.served) → Nonempty S →
    SSeries g cfg (Server.init g) σ → OrphanSafe g (evs σ.out) →
    ∃ ks τ, SSteps g cfg (σ.resume g) ks τ ∧ τ.stop = true ∧
      ∀ n ∈ g.nodes, Done (evs τ.out) n ∨ Dead g (evs σ.out) n ∨ Orphan g (evs σ.out) n

private theorem keeps (hg : g.Loose) (h : SSeries g cfg (Server.init g) σ) : ∃ ph, SInv g (over ph σ) ∧ StopOK g σ := by
  obtain ⟨ph, h1, h2, _⟩ := h.keeps hg [] SInv.init ((SRun.init (cfg := cfg)).stopOK hg)
  exact ⟨ph, h1, h2⟩

/-- C105: whenever and however often runs are interrupted and resumed, a block is sent only after everything upstream of
it has completed, in whichever run. -/
theorem C105_order (hg : g.Loose) (h : SSeries g cfg (Server.init g) σ) {pre post : List (Out N T S)} {s : S} {n a : N}
    (ho : σ.out = pre ++ .send s n :: post) (ha : Anc g a n) : Done (evs pre) a := by
  obtain ⟨ph, h1, _⟩ := keeps hg h
  have hr : Run g (evs σ.out) σ.sched := h1.run
  rw [ho, evs_append] at hr
  exact loose_order hg hr (n := n) (post := evs post) rfl ha

/-- C105: a block is not sent if it has completed or failed permanently in an earlier run, or was out for processing when
an earlier run was interrupted; and no block completes twice. -/
theorem C105_once (hg : g.Loose) (h : SSeries g cfg (Server.init g) σ) :
    (∀ (pre post : List (Out N T S)) (s : S) (n : N), σ.out = pre ++ .send s n :: post →
      ¬ Held (evs pre) n ∧ ¬ Done (evs pre) n ∧ ¬ Dead g (evs pre) n) ∧
    ∀ n, (evs σ.out).count (.good n) + (evs σ.out).count (.skip n) ≤ 1 := by
  obtain ⟨ph, h1, _⟩ := keeps hg h
  have hr : Run g (evs σ.out) σ.sched := h1.run
  refine ⟨?_, fun n => (C17_loose_once_partial hg hr n).1⟩
  intro pre post s n ho
  rw [ho, evs_append] at hr
  exact C17_loose_partial hg hr (n := n) (post := evs post) (Or.inl rfl)

/-- C105: a resumed run does not raise, as long as the clients, also those of earlier runs, send proper messages. -/
theorem C105_never_raises (hg : g.Loose) (h : SSeries g cfg (Server.init g) σ) {k : Server.Tick N T S}
    (hk : GoodTick g cfg k) : ∃ σ', σ.iteration g cfg k = .ok σ' := by
  obtain ⟨ph, h1, _⟩ := keeps hg h
  obtain ⟨σ', h2, _⟩ := iteration_keeps hg h1 hk
  exact ⟨σ', h2⟩

/-- C105: a resumed run stops only when everything is finished and no block is out, where orphans are counted correctly. -/
theorem C105_stop (hg : g.OK) (h : SSeries g cfg (Server.init g) σ) (hx : OrphanExact g (evs σ.out))
    (hs : σ.stop = true) : (∀ n ∈ g.nodes, Done (evs σ.out) n ∨ Dead g (evs σ.out) n ∨ Orphan g (evs σ.out) n) ∧
      ∀ n, holder σ.out n = none := by
  obtain ⟨ph, h1, h2⟩ := keeps hg h
  have hall : ∀ n ∈ g.nodes, Done (evs σ.out) n ∨ Dead g (evs σ.out) n ∨ Orphan g (evs σ.out) n :=
    fun n hn => h2.stop hs hx (g.task n) (hg.task_mem n hn) n hn rfl
  refine ⟨hall, ?_⟩
  intro n
  by_contra hc
  have hh : Held (evs σ.out) n := (h1.held n).2 hc
  have hr : Run g (evs σ.out) σ.sched := h1.run
  have hd := C19_disjoint_partial hg hr n
  have := hall n (held_mem hg hr hh)
  tauto

/-- C105: a block that is out for processing when a run is interrupted is lost: however often the scheduler is used again,
the block is neither sent nor taken back, no block downstream of it is ever sent, and no run with that scheduler stops. -/
theorem C105_lost (hg : g.Loose) (h : SSeries g cfg (Server.init g) σ) {n : N} {s : S} (hn : holder σ.out n = some s)
    (h' : SSeries g cfg (σ.resume g) τ) :
    (∃ es, evs τ.out = evs σ.out ++ es ∧ ∀ e ∈ es, e.node ≠ n) ∧
    (∀ s' m, Anc g n m → .send s' m ∉ τ.out) ∧ (OrphanExact g (evs τ.out) → τ.stop = false) := by
  obtain ⟨ph, h1, _⟩ := keeps hg h
  have hmem : n ∈ g.nodes := h1.toSCore.mem hg (n := n) (by
    change holder σ.out n ≠ none
    rw [hn]; simp)
  have hph : (ph ++ σ.book).get (g.key n) ≠ none := by
    have := h1.book n hmem
    change (Book.get (ph ++ σ.book) (g.key n)).map _ = holder σ.out n at this
    rw [hn] at this
    intro hc
    rw [hc] at this
    cases this
  have hres : SInv g (over (ph ++ σ.book) (σ.resume g)) := h1.resume
  have hstop : StopOK g (σ.resume g) := by
    refine StopOK.recruit ⟨?_, ?_⟩
    · intro h; cases h
    · intro t h; cases h
  obtain ⟨ph', h3, h4, h5⟩ := h'.keeps hg _ hres hstop
  obtain ⟨es, h6, h7⟩ := h5 n hmem hph
  have hev : evs (σ.resume g).out = evs σ.out := (recruit_frame _).evs
  have hheld : Held (evs τ.out) n := h3.held_over (by
    cases hl : (ph ++ σ.book).get (g.key n) with
    | none => exact absurd hl hph
    | some l => rw [get_over_some hl]; simp) hmem
  have hr : Run g (evs τ.out) τ.sched := h3.run
  have hd := (C19_loose_disjoint_partial hg hr n).2.1 hheld
  refine ⟨⟨es, by rw [h6, hev], h7⟩, ?_, ?_⟩
  · intro s' m ha hc
    obtain ⟨pre, post, ho⟩ := List.append_of_mem hc
    have hr' := hr
    rw [ho, evs_append] at hr'
    have := loose_order hg hr' (n := m) (post := evs post) rfl ha
    refine hd.1 ?_
    rw [ho, evs_append]
    exact done_mono this
  · intro hx
    cases hs : τ.stop with
    | false => rfl
    | true =>
      have := h4.stop hs hx (g.task n) (hg.task_mem n hmem) n hmem rfl
      rcases this with h | h | h
      · exact absurd h hd.1
      · exact absurd h hd.2.1
      · exact absurd h hd.2.2

private theorem resume_core [Nonempty N] (hg : g.OK) (hall : ∀ n ∈ g.nodes, g.task n ∈ cfg.served) (s : S)
    (h : SSeries g cfg (Server.init g) σ) (hx : OrphanSafe g (evs σ.out)) (hn : ∀ n, holder σ.out n = none) :
    ∃ ks τ, SSteps g cfg (σ.resume g) ks τ ∧ τ.stop = true ∧ OrphanExact g (evs τ.out) ∧
      ∀ n ∈ g.nodes, Done (evs τ.out) n ∨ Dead g (evs σ.out) n ∨ Orphan g (evs σ.out) n := by
  classical
  let pick : Nat → Finset N → N := fun _ s => if h : s.Nonempty then h.choose else Classical.arbitrary N
  have hp : LegalPick pick := by
    intro i s hs
    show (if h : s.Nonempty then h.choose else Classical.arbitrary N) ∈ s
    rw [dif_pos hs]
    exact hs.choose_spec
  obtain ⟨ph, h1, _⟩ := keeps hg h
  have hev : evs (σ.resume g).out = evs σ.out := (recruit_frame _).evs
  have hI : SInv g (σ.resume g) := h1.resume_free hn
  obtain ⟨ks', τ, h2, h3, h4⟩ := can_finish hg hall s hp _ _ hI (by rw [hev]; exact hx) (le_refl _)
  rw [hev] at h4
  obtain ⟨_, h5, _⟩ := keeps hg (h.again.steps h2)
  have hx' : OrphanExact g (evs τ.out) := (safe_dead h4 hx).exact hg h5.run
  refine ⟨ks', τ, h2, h3, hx', ?_⟩
  intro n hn
  rcases (C105_stop hg (h.again.steps h2) hx' h3).1 n hn with h5 | h5 | ⟨f, h5, h6⟩
  · exact Or.inl h5
  · exact Or.inr (Or.inl ((h4 n).1 h5))
  · exact Or.inr (Or.inr ⟨f, (h4 f).1 h5, h6⟩)

/-- C105, partial: the claim holds if no block is out for processing when the run is interrupted.  Missing: otherwise it
is false (`C105_lost`). -/
theorem C105_resume_partial [Nonempty N] (hg : g.OK) (hall : ∀ n ∈ g.nodes, g.task n ∈ cfg.served) (s : S)
    (h : SSeries g cfg (Server.init g) σ) (hx : OrphanSafe g (evs σ.out)) (hn : ∀ n, holder σ.out n = none) :
    ∃ ks τ, SSteps g cfg (σ.resume g) ks τ ∧ τ.stop = true ∧
      ∀ n ∈ g.nodes, Done (evs τ.out) n ∨ Dead g (evs σ.out) n ∨ Orphan g (evs σ.out) n := by
  obtain ⟨ks, τ, h1, h2, _, h3⟩ := resume_core hg hall s h hx hn
  exact ⟨ks, τ, h1, h2, h3⟩

/-- C105: a run can be resumed exactly if no block is out for processing when it is interrupted. -/
theorem C105_iff [Nonempty N] (hg : g.OK) (hall : ∀ n ∈ g.nodes, g.task n ∈ cfg.served) (s : S)
    (h : SSeries g cfg (Server.init g) σ) (hx : OrphanSafe g (evs σ.out)) :
    (∃ ks τ, SSteps g cfg (σ.resume g) ks τ ∧ τ.stop = true ∧ OrphanExact g (evs τ.out)) ↔
      ∀ n, holder σ.out n = none := by
  constructor
  · rintro ⟨ks, τ, h1, h2, h3⟩ n
    cases hn : holder σ.out n with
    | none => rfl
    | some s' =>
      have := (C105_lost hg h hn (SSeries.nil.steps h1)).2.2 h3
      rw [h2] at this
      cases this
  · intro hn
    obtain ⟨ks, τ, h1, h2, h3, _⟩ := resume_core hg hall s h hx hn
    exact ⟨ks, τ, h1, h2, h3⟩

/-- A block is given back, then the run is interrupted with nothing out: it can be resumed. -/
example : ∃ σ : Server (Fin 6) (Fin 3) (Fin 6) Nat, SSeries Ex.three Ex.threeConf (Server.init Ex.three) σ ∧ OrphanSafe Ex.three (evs σ.out) ∧
    (∀ n, holder σ.out n = none) ∧ Done (evs σ.out) 0 ∧ ¬ Done (evs σ.out) 5 := by
  have hx : (sexec Ex.three Ex.threeConf (ticks [acq 2 7, ret 0 7] : List (Server.Tick (Fin 6) (Fin 3) Nat))).map
      (fun σ => decide ((∀ n, holder σ.out n = none) ∧ Done (evs σ.out) 0 ∧ ¬ Done (evs σ.out) 5)) = some true := by
    decide +kernel
  obtain ⟨σ, h, e⟩ := sexec_run (S := Nat) (ticks_legal _) _ hx
  obtain ⟨e1, e2, e3⟩ := of_decide_eq_true e
  exact ⟨σ, h.series, safe_of_two (by decide), e1, e2, e3⟩

/-- One block, which client `7` has when the run is interrupted. -/
theorem Ex.one_out : ∃ σ : Server (Fin 1) (Fin 1) (Fin 1) Nat, SSeries Ex.one ⟨[0], fun _ => none⟩ (Server.init Ex.one) σ ∧
    holder σ.out 0 = some 7 := by
  have hx : (sexec Ex.one ⟨[0], fun _ => none⟩ (ticks [acq 0 7] : List (Server.Tick (Fin 1) (Fin 1) Nat))).map
      (fun σ => decide (holder σ.out 0 = some 7)) = some true := by
    decide +kernel
  obtain ⟨σ, h, e⟩ := sexec_run (S := Nat) (ticks_legal _) _ hx
  exact ⟨σ, h.series, of_decide_eq_true e⟩

/-- C105 is false: the run is interrupted while a client has a block. -/
theorem C105_false : ¬ C105_statement := by
  intro hC
  obtain ⟨σ, h1, h2⟩ := Ex.one_out
  obtain ⟨ks, τ, h3, h4, _⟩ := hC (Fin 1) (Fin 1) (Fin 1) Nat Ex.one ⟨[0], fun _ => none⟩ σ Ex.one_ok (by decide) ⟨0⟩ h1
    (safe_of_two (by decide))
  have := (C105_lost Ex.one_ok h1 h2 (SSeries.nil.steps h3)).2.2 (exact_of_two (by decide))
  rw [h4] at this
  cases this

/-! ### The serial server -/

section

variable {N T K : Type} [DecidableEq N] [DecidableEq T] [DecidableEq K] {g : DGraph N T K} {served : List T}
  {ks : List (SerTick N T)} {σ τ : Serial N T K}

private theorem finishPass_calls {t : T} (h : σ.finishPass t = .ok τ) :
    τ.sched = σ.sched ∧ ∀ m, .call m ∈ τ.out → .call m ∈ σ.out := by
  unfold Serial.finishPass at h
  simp only at h
  split at h
  · cases h
  · rename_i σ2 h2
    have h3 : σ2.sched = σ.sched ∧ ∀ m, .call m ∈ σ2.out → .call m ∈ σ.out := by
      split at h2
      · split at h2
        · split at h2
          · cases h2
            exact ⟨rfl, fun m hm => by simpa [Serial.emit] using hm⟩
          · cases h2
        · cases h2
      · cases h2
        exact ⟨rfl, fun _ hm => hm⟩
    split at h
    · cases h
      exact ⟨h3.1, fun m hm => h3.2 m (by simpa [Serial.leave] using hm)⟩
    · cases h
      exact h3

private theorem held_other {tr : List (Ev N)} {n : N} {e : Ev N} (he : e.node ≠ n) :
    Held (tr ++ [e]) n ↔ Held tr n := by
  have h : ∀ f : Ev N, f.node = n → (tr ++ [e]).count f = tr.count f := by
    intro f hf
    rw [List.count_append, List.count_eq_zero (l := [e]) |>.2, Nat.add_zero]
    intro hc
    rw [List.mem_singleton] at hc
    rw [← hc, hf] at he
    exact he rfl
  unfold Held
  rw [h (.good n) rfl, h (.bad n) rfl, h (.hand n) rfl]

private theorem handed_held (hg : g.Loose) {tr : List (Ev N)} {st : Sched N T K} (h : Run g tr st) {skips : List N} {n : N} :
    Held (tr ++ acquireEvents skips (some n)) n := by
  have h1 := ((h.facts hg).bal n).1
  have h5 : ∀ e : Ev N, (∀ x, e ≠ .skip x) → (skips.map Ev.skip).count e = 0 := by
    intro e he
    rw [List.count_eq_zero]
    intro hm
    obtain ⟨x, _, rfl⟩ := List.mem_map.1 hm
    exact he x rfl
  unfold Held
  rw [acquireEvents_some]
  simp only [List.count_append, h5 (.good n) (by simp), h5 (.bad n) (by simp), h5 (.hand n) (by simp)]
  simp
  omega

/-- A block that is out stays out, and nothing downstream of it is called. -/
private theorem pass_keeps (hg : g.Loose) {n : N} {k : SerTick N T} (hk : LegalPick k.pick)
    (h : ∃ tr, Run g tr σ.sched ∧ Held tr n) (he : σ.pass g served k = .ok τ) :
    (∃ tr, Run g tr τ.sched ∧ Held tr n) ∧
    ∀ m, .call m ∈ τ.out → .call m ∈ σ.out ∨ m ≠ n ∧ ¬ Anc g n m := by
  obtain ⟨tr, hr, hn⟩ := h
  unfold Serial.pass at he
  simp only at he
  split at he
  · cases he
    exact ⟨⟨tr, hr, hn⟩, fun m hm => Or.inl (by simpa [Serial.leave] using hm)⟩
  obtain ⟨skips, r, st, f1, f2, _, f4, _⟩ := acquireAny_spec hg k.chk (σ.sched.getReadyTasks g) hr
  rw [f1] at he
  have hap := acquire_apart (loose_legal hg f2) hn
  cases r with
  | none =>
    cases he
    refine ⟨⟨_, f2, ?_⟩, fun m hm => Or.inl (by simpa [Serial.leave, Serial.emit] using hm)⟩
    have : acquireEvents skips none = skips.map .skip := by simp [acquireEvents]
    rw [this, held_skips]
    exact hn
  | some m =>
    simp only at he
    have hrd := (f4 m rfl).1
    have hmn : m ≠ n := hap (.hand m) (by simp [acquireEvents])
    have hev : tr ++ acquireEvents skips (some m) = (tr ++ skips.map .skip) ++ [.hand m] := by
      simp [acquireEvents]
    have hanc : ¬ Anc g n m := by
      intro hc
      have hl := loose_legal hg f2
      rw [hev] at hl
      have := legal_anc_done (legal_prefix hl rfl) hrd.2.1 hc
      have hh : Held (tr ++ acquireEvents skips (some m)) n := by
        rw [hev, held_other (by exact hmn), held_skips]; exact hn
      refine ((C19_loose_disjoint_partial hg f2 n).2.1 hh).1 ?_
      rw [hev]
      exact done_mono this
    have hst := startTask_eq (({ σ.emit (skips.map .skip) with sched := st } : Serial N T K)) (g.task m)
    generalize Serial.startTask ({ σ.emit (skips.map .skip) with sched := st } : Serial N T K) (g.task m) = ρ at he hst
    split at he
    · have key : ∀ (p : Proc) (st' : Sched N T K) (mk : List N), p ≠ .raises →
          st.releaseBlock g k.pick m (Serial.statusAfter (ρ.emit [.acquired (g.task m)]) m p) = .ok st' →
          Serial.finishPass (({ (ρ.emit [.acquired (g.task m)]).emit [.call m] with marked := mk, sched := st' } :
            Serial N T K).emit [.release m (Serial.statusAfter (ρ.emit [.acquired (g.task m)]) m p),
            .released (g.task m)]) (g.task m) = .ok τ →
          (∃ tr, Run g tr τ.sched ∧ Held tr n) ∧
          ∀ m, .call m ∈ τ.out → .call m ∈ σ.out ∨ m ≠ n ∧ ¬ Anc g n m := by
        intro p st' mk _ hrel hfin
        obtain ⟨e1, e2⟩ := finishPass_calls hfin
        refine ⟨?_, ?_⟩
        · rw [e1]
          have hhm : Held (tr ++ acquireEvents skips (some m)) m := by
            exact handed_held hg hr
          have hhn : Held (tr ++ acquireEvents skips (some m)) n := by
            rw [hev, held_other (by exact hmn), held_skips]; exact hn
          rcases statusAfter_cases (ρ.emit [.acquired (g.task m)]) m p with hs | hs
          · rw [hs] at hrel
            exact ⟨_, Run.bad k.pick f2 hhm hk hrel, (held_other (by exact hmn)).2 hhn⟩
          · rw [hs] at hrel
            exact ⟨_, Run.good k.pick f2 hhm hk hrel, (held_other (by exact hmn)).2 hhn⟩
        · intro x hx
          have := e2 x hx
          simp only [Serial.emit, List.mem_append, List.mem_cons, List.not_mem_nil, or_false, hst.2.2.2.2.2.2.1,
            reduceCtorEq, SerOut.call.injEq, List.mem_map, and_false, exists_false] at this
          rcases this with (h | h) | h
          · exact Or.inl h
          · by_cases hc : g.task m ∈ σ.started <;> simp [hc] at h
          · exact Or.inr (h ▸ ⟨hmn, hanc⟩)
      split at he
      · cases he
      · rename_i hpr
        split at he
        · cases he
        · rename_i st' hrel
          refine key (k.proc m) st' _ hpr ?_ he
          rw [← hrel]
          change _ = ρ.sched.releaseBlock g k.pick m _
          rw [hst.1]
    · cases he

/-- C105: if a process function raises in the serial server, a second run with the same scheduler never calls a process
function for the same block or for a block downstream of it. -/
theorem C105_serial_lost (hg : g.Loose) (h : SerRun g served ks σ) {k : SerTick N T} {skips : List N} {n : N}
    {sched : Sched N T K}
    (ha : Serial.acquireAny g k.chk (σ.sched.getReadyTasks g) σ.sched = .ok (skips, some n, sched))
    (h' : SerMore g served (Serial.resume served σ sched) τ) :
    ∀ m, m = n ∨ Anc g n m → .call m ∉ τ.out := by
  have hP : (∃ tr, Run g tr τ.sched ∧ Held tr n) ∧ ∀ m, .call m ∈ τ.out → m ≠ n ∧ ¬ Anc g n m := by
    induction h' with
    | nil =>
      obtain ⟨sk, r, st, f1, f2, _⟩ := acquireAny_spec hg k.chk (σ.sched.getReadyTasks g) (h.inv hg).run
      rw [f1] at ha
      cases ha
      exact ⟨⟨_, f2, handed_held hg (h.inv hg).run⟩, fun m hm => by cases hm⟩
    | pass k' _ _ hk he ih =>
      obtain ⟨a1, a2⟩ := pass_keeps hg hk ih.1 he
      exact ⟨a1, fun m hm => (a2 m hm).elim (ih.2 m) id⟩
  rintro m (rfl | ha) hm
  · exact (hP.2 m hm).1 rfl
  · exact (hP.2 m hm).2 ha

end

/-- C105 is false of the serial server: the process function raises for the only block; a second run with the same
scheduler returns normally and has not called the process function. -/
theorem C105_serial_false : ∃ (k : SerTick (Fin 1) (Fin 1)) (sched : Sched (Fin 1) (Fin 1) (Fin 1))
    (τ : Serial (Fin 1) (Fin 1) (Fin 1)), Ex.one.OK ∧ LegalPick k.pick ∧
    (Serial.init Ex.one [0]).pass Ex.one [0] k = .error .userException ∧
    Serial.acquireAny Ex.one k.chk ((Sched.init Ex.one).getReadyTasks Ex.one) (Sched.init Ex.one) =
      .ok ([], some 0, sched) ∧
    SerMore Ex.one [0] (Serial.resume [0] (Serial.init Ex.one [0]) sched) τ ∧ τ.ended = true ∧
    (∀ n, .call n ∉ τ.out) ∧ (τ.sched.states 0).isDone = false := by
  obtain ⟨k, hk⟩ : ∃ k : SerTick (Fin 1) (Fin 1), k = { serTick pickMin with proc := fun _ => .raises } := ⟨_, rfl⟩
  have h1 : (match (Serial.init Ex.one [0]).pass Ex.one [0] k with | .error e => some e | .ok _ => none) =
      some PyErr.userException := by
    subst hk
    decide +kernel
  have h2 : (match Serial.acquireAny Ex.one k.chk ((Sched.init Ex.one).getReadyTasks Ex.one) (Sched.init Ex.one) with
      | .ok (skips, r, st) => match (Serial.resume [0] (Serial.init Ex.one [0]) st).pass Ex.one [0] k with
        | .ok τ => some (skips, r, decide (τ.ended = true ∧ (∀ n, .call n ∉ τ.out) ∧ (τ.sched.states 0).isDone = false))
        | .error _ => none
      | .error _ => none) = some ([], some 0, true) := by
    subst hk
    decide +kernel
  have hp : LegalPick k.pick := by subst hk; exact pickMin_legal
  split at h2
  · rename_i skips r st he
    split at h2
    · rename_i τ hτ
      simp only [Option.some.injEq, Prod.mk.injEq, decide_eq_true_eq] at h2
      obtain ⟨rfl, rfl, h3, h4, h5⟩ := h2
      refine ⟨k, st, τ, Ex.one_ok, hp, ?_, he, SerMore.pass k SerMore.nil rfl hp hτ, h3, h4, h5⟩
      cases hq : (Serial.init Ex.one [0]).pass Ex.one [0] k with
      | error e => rw [hq] at h1; cases h1; rfl
      | ok _ => rw [hq] at h1; cases h1
    · cases h2
  · cases h2

end Verif
