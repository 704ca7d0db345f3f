import Verif.Proofs.ResumeSerial
import Verif.Props.Resume

/-! # C105: interrupted runs of the serial server that can be resumed -/

namespace Verif

open Spec

variable {N T K : Type} [DecidableEq N] [DecidableEq T] [DecidableEq K] {g : DGraph N T K} {served : List T}
  {ks : List (SerTick N T)} {σ τ : Serial N T K}

/-- C105: a second run of the serial server calls a process function only for blocks all of whose upstream blocks have
completed, in whichever run. -/
theorem C105_serial_order (hg : g.Loose) (h : SerRun g served ks σ)
    (h' : SerMore g served (Serial.resume served σ σ.sched) τ) {pre post : List (SerOut N T)} {n a : N}
    (ho : τ.out = pre ++ .call n :: post) (ha : Anc g a n) : Done (serEvs (σ.out ++ pre)) a := by
  have hi := ((h.inv hg).resume.more hg h').run
  have e : serEvs (τ.after σ.out).out = serEvs (σ.out ++ pre) ++ .hand n :: serEvs post := by
    change serEvs (σ.out ++ τ.out) = _
    rw [ho, ← List.append_assoc, serEvs_append]
    rfl
  exact loose_order hg hi e ha

/-- C105: interrupted between two passes of the loop, a run of the serial server can be resumed: no pass of the second run
raises, if no process function does, as long as orphans are counted exactly. -/
theorem C105_serial_never_raises (hg : g.Loose) (hs : ∀ t ∈ g.tasks, t ∈ served) (h : SerRun g served ks σ)
    (h' : SerMore g served (Serial.resume served σ σ.sched) τ) (hx : OrphanExact g (serEvs (σ.out ++ τ.out)))
    (he : τ.ended = false) {k : SerTick N T} (hpick : LegalPick k.pick) (hk : SerTick.Returns k) :
    ∃ τ', τ.pass g served k = .ok τ' := by
  obtain ⟨ρ, hρ⟩ := ((h.inv hg).resume.more hg h').pass_ok hg hs hx he hpick hk
  rw [after_pass] at hρ
  cases hq : τ.pass g served k with
  | ok τ' => exact ⟨τ', rfl⟩
  | error e => rw [hq] at hρ; cases hρ

/-- C105: when the second run returns, all blocks have completed, failed permanently, or are orphans, if all
blocks that depend on a skipped block are of the same task. -/
theorem C105_serial_stop (hg : g.OK) (hs : ∀ t ∈ g.tasks, t ∈ served) (h : SerRun g served ks σ)
    (h' : SerMore g served (Serial.resume served σ σ.sched) τ) (hx : OrphanExact g (serEvs (σ.out ++ τ.out)))
    (hl : ∀ x, .skip x ∈ serEvs (σ.out ++ τ.out) → LocalTo g x) (he : τ.ended = true) :
    ∀ n ∈ g.nodes, Done (serEvs (σ.out ++ τ.out)) n ∨ Dead g (serEvs (σ.out ++ τ.out)) n ∨
      Orphan g (serEvs (σ.out ++ τ.out)) n := by
  have hi := (h.inv hg.loose).resume.more hg.loose h'
  intro n hn
  rcases hi.ended he with h1 | h1
  · exact hi.fin hx _ (h1 _ (hs _ (hg.task_mem n hn))) n hn rfl
  · exact finished_of_idle hg (fun n hn => not_starved hg n (h1 hl n hn)) hi.idle n hn

private theorem SerMore.trans {a b c : Serial N T K} (h : SerMore g served a b) (h' : SerMore g served b c) :
    SerMore g served a c := by
  induction h' with
  | nil => exact h
  | pass k _ he hk hp ih => exact ih.pass k he hk hp

/-- A pass in which nothing is skipped and a process function sets the status to `SUCCESS`. -/
private theorem good_pass (hg : g.OK) (hs : ∀ t ∈ g.tasks, t ∈ served) {pick : Nat → Finset N → N} (hp : LegalPick pick)
    {pre : List (SerOut N T)} (h : SerInv g served (σ.after pre)) (hx : OrphanSafe g (serEvs (pre ++ σ.out)))
    (he : σ.ended = false) :
    ∃ τ, σ.pass g served ⟨fun _ _ _ => .reject, fun _ => .set .success, pick⟩ = .ok τ ∧
      (τ.ended = true ∧ serEvs (pre ++ τ.out) = serEvs (pre ++ σ.out) ∨
        ∃ n, serEvs (pre ++ τ.out) = serEvs (pre ++ σ.out) ++ [.hand n, .good n]) := by
  obtain ⟨k, hk⟩ : ∃ k : SerTick N T, k = ⟨fun _ _ _ => .reject, fun _ => .set .success, pick⟩ := ⟨_, rfl⟩
  rw [← hk]
  have hpk : LegalPick k.pick := by rw [hk]; exact hp
  have hret : SerTick.Returns k := fun n => by rw [hk]; simp
  obtain ⟨ρ, hρ⟩ := h.pass_ok hg.loose hs (hx.exact hg h.run) he hpk hret
  have hback : ∃ τ, σ.pass g served k = .ok τ ∧ ρ = τ.after pre := by
    have hρ' := hρ
    rw [after_pass] at hρ'
    cases hq : σ.pass g served k with
    | ok τ => rw [hq] at hρ'; cases hρ'; exact ⟨τ, rfl, rfl⟩
    | error e => rw [hq] at hρ'; cases hρ'
  obtain ⟨τ, h1, rfl⟩ := hback
  refine ⟨τ, h1, ?_⟩
  have hnil : ∀ {sk : List N} {r : Option N} {st : Sched N T K},
      Serial.acquireAny g k.chk ((σ.after pre).sched.getReadyTasks g) (σ.after pre).sched = .ok (sk, r, st) → sk = [] := by
    intro sk r st h3
    obtain ⟨sk', r', st', f1, _, f3, _⟩ := acquireAny_spec hg.loose k.chk ((σ.after pre).sched.getReadyTasks g) h.run
    rw [f1] at h3
    cases h3
    rw [List.eq_nil_iff_forall_not_mem]
    intro x hx
    obtain ⟨_, i, hi⟩ := f3 x hx
    rw [hk] at hi
    cases hi
  rcases pass_cases hg.loose h he hpk with ⟨σ1, sk, h3, h4⟩ | ⟨sk, m, st, _, _, h3 | h3 | ⟨σ1, h3, h4⟩⟩
  · rw [hρ] at h3; cases h3
    left
    refine ⟨h4.ended, ?_⟩
    have := h4.evs
    have h5 : sk = [] := h4.why.elim (fun h => h.2.1) hnil
    rw [h5, List.map_nil, List.append_nil] at this
    exact this
  · rw [hρ] at h3; cases h3.2
  · rw [hρ] at h3; cases h3.2.2
  · rw [hρ] at h3; cases h3
    right
    obtain ⟨st, a1, _⟩ := h4.acquired
    have := h4.evs
    rw [hnil a1] at this
    refine ⟨m, this.trans ?_⟩
    rw [hk]
    change serEvs (pre ++ σ.out) ++ [Ev.hand m] ++ [Ev.good m] = _
    simp

private theorem can_return (hg : g.OK) (hs : ∀ t ∈ g.tasks, t ∈ served) {pick : Nat → Finset N → N} (hp : LegalPick pick)
    {pre : List (SerOut N T)} : ∀ (d : Nat) (σ : Serial N T K), SerInv g served (σ.after pre) →
      OrphanSafe g (serEvs (pre ++ σ.out)) → (∀ x, .skip x ∈ serEvs (pre ++ σ.out) → LocalTo g x) →
      (g.nodes.map (fun n => 2 * ((g.maxRetries (g.task n)).toNat + 1) + 1)).sum - (serEvs (pre ++ σ.out)).length ≤ d →
      ∃ τ, SerMore g served σ τ ∧ τ.ended = true ∧
        (∀ n, Dead g (serEvs (pre ++ τ.out)) n ↔ Dead g (serEvs (pre ++ σ.out)) n) ∧
        ∀ x, .skip x ∈ serEvs (pre ++ τ.out) → LocalTo g x := by
  intro d
  induction d with
  | zero =>
    intro σ h hx hl hd
    cases hs' : σ.ended with
    | true => exact ⟨σ, SerMore.nil, hs', fun _ => Iff.rfl, hl⟩
    | false =>
      obtain ⟨τ, h1, h2⟩ := good_pass hg hs hp h hx hs'
      have h3 : SerInv g served (τ.after pre) := h.more hg.loose (SerMore.nil.pass _ hs' hp h1)
      rcases h2 with ⟨h2, h4⟩ | ⟨n, h4⟩
      · exact ⟨τ, SerMore.nil.pass _ hs' hp h1, h2, fun n => by rw [h4], by rw [h4]; exact hl⟩
      · have := C24_finite_partial hg h3.run
        change (serEvs (pre ++ τ.out)).length ≤ _ at this
        rw [h4, List.length_append] at this
        simp only [List.length_cons, List.length_nil] at this
        omega
  | succ d ih =>
    intro σ h hx hl hd
    cases hs' : σ.ended with
    | true => exact ⟨σ, SerMore.nil, hs', fun _ => Iff.rfl, hl⟩
    | false =>
      obtain ⟨τ, h1, h2⟩ := good_pass hg hs hp h hx hs'
      have hm : SerMore g served σ τ := SerMore.nil.pass _ hs' hp h1
      rcases h2 with ⟨h2, h4⟩ | ⟨n, h4⟩
      · exact ⟨τ, hm, h2, fun n => by rw [h4], by rw [h4]; exact hl⟩
      · have hdead : ∀ x, Dead g (serEvs (pre ++ τ.out)) x ↔ Dead g (serEvs (pre ++ σ.out)) x := by
          intro x
          rw [h4, show [Ev.hand n, Ev.good n] = [Ev.hand n] ++ [.good n] from rfl, ← List.append_assoc,
            dead_snoc (by simp), dead_snoc (by simp)]
        obtain ⟨υ, a1, a2, a3, a4⟩ := ih τ (h.more hg.loose hm) (safe_dead hdead hx)
          (by intro x hx'
              rw [h4] at hx'
              exact hl x (by simpa using hx'))
          (by rw [h4, List.length_append]; simp only [List.length_cons, List.length_nil]; omega)
        exact ⟨υ, SerMore.trans hm a1, a2, fun x => (a3 x).trans (hdead x), a4⟩

/-- C105, partial: interrupted between two passes of the loop, a run of the serial server can be resumed, so that all blocks
complete except those that had failed permanently or are downstream of such a block.  Missing: if it is interrupted by an
exception of a process function it is false (`C105_serial_false`). -/
theorem C105_serial_resume_partial [Nonempty N] (hg : g.OK) (hs : ∀ t ∈ g.tasks, t ∈ served) (h : SerRun g served ks σ)
    (hx : OrphanSafe g (serEvs σ.out)) (hl : ∀ x, .skip x ∈ serEvs σ.out → LocalTo g x) :
    ∃ τ, SerMore g served (Serial.resume served σ σ.sched) τ ∧ τ.ended = true ∧
      ∀ n ∈ g.nodes, Done (serEvs (σ.out ++ τ.out)) n ∨ Dead g (serEvs σ.out) n ∨ Orphan g (serEvs σ.out) n := by
  classical
  let pick : Nat → Finset N → N := fun _ s => if h : s.Nonempty then h.choose else Classical.arbitrary N
  have hp : LegalPick pick := by
    intro i s hs
    show (if h : s.Nonempty then h.choose else Classical.arbitrary N) ∈ s
    rw [dif_pos hs]
    exact hs.choose_spec
  have e : σ.out ++ (Serial.resume served σ σ.sched).out = σ.out := List.append_nil _
  obtain ⟨τ, h1, h2, h3, h4⟩ := can_return hg hs hp (pre := σ.out) _ (Serial.resume served σ σ.sched)
    (h.inv hg.loose).resume (by rw [e]; exact hx) (by rw [e]; exact hl) (le_refl _)
  rw [e] at h3
  refine ⟨τ, h1, h2, fun n hn => ?_⟩
  have hi := (h.inv hg.loose).resume.more hg.loose h1
  rcases C105_serial_stop hg hs h h1 ((safe_dead h3 hx).exact hg hi.run) h4 h2 n hn with h5 | h5 | ⟨f, h5, h6⟩
  · exact Or.inl h5
  · exact Or.inr (Or.inl ((h3 n).1 h5))
  · exact Or.inr (Or.inr ⟨f, (h3 f).1 h5, h6⟩)

/-- Block 0 of `vee` fails, then the run is interrupted. -/
example : Ex.vee.OK ∧ ∃ ks σ, SerRun Ex.vee [1, 0] ks σ ∧ OrphanSafe Ex.vee (serEvs σ.out) ∧
    (∀ x, .skip x ∈ serEvs σ.out → LocalTo Ex.vee x) ∧ σ.ended = false ∧ .bad 0 ∈ serEvs σ.out ∧
    ¬ Dead Ex.vee (serEvs σ.out) 0 := by
  refine ⟨Ex.vee_ok, ?_⟩
  have hx : (serExec Ex.vee [1, 0] [serTick pickMin [] [0]]).map
      (fun σ => decide ((∀ x, .skip x ∉ serEvs σ.out) ∧ σ.ended = false ∧ .bad 0 ∈ serEvs σ.out ∧
        ¬ Dead Ex.vee (serEvs σ.out) 0)) = some true := by decide +kernel
  obtain ⟨σ, h1, h2⟩ := serExec_run (by
    intro k hk
    rw [List.mem_singleton.1 hk]
    exact pickMin_legal) _ hx
  obtain ⟨e1, e2, e3, e4⟩ := of_decide_eq_true h2
  exact ⟨_, σ, h1, safe_of_two (by decide), fun x hx => absurd hx (e1 x), e2, e3, e4⟩

end Verif
