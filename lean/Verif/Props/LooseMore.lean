import Verif.Props.Reject
import Verif.Props.Fifo
import Verif.Props.Interrupt
import Verif.Props.StarvedServers

/-! # C28, C69, C90 and C98 for graphs with blocks that depend on nothing although their task depends on others -/

set_option linter.unusedSectionVars false

namespace Verif

open Spec

variable {N T K S : Type} [DecidableEq N] [DecidableEq T] [DecidableEq K] [DecidableEq S] {g : DGraph N T K}
variable {tr : List (Ev N)} {st : Sched N T K} {cfg : SConf T} {σ : Server N T K S} {ks : List (Server.Tick N T S)}

/-- C69, as `C69_scheduler`. -/
theorem C69_loose_scheduler (hg : g.Loose) (h : Run g tr st) {n : N} (hn : Held tr n)
    {status : BlockStatus} (h1 : status ≠ .success) (h2 : status ≠ .failed) (pick : Nat → Finset N → N) :
    st.releaseBlock g pick n status = .error .runtimeError := by
  obtain ⟨⟨st', e⟩, _⟩ := (C24_loose_partial hg h).2 (fun _ s => if h : s.Nonempty then h.choose else n) n
    (fun _ s hs => by simp only [dif_pos hs]; exact hs.choose_spec) hn
  unfold Sched.releaseBlock at e ⊢
  cases hr : st.removeFromProcessing g n with
  | error x => rw [hr] at e; cases e
  | ok st1 =>
    cases status with
    | success => exact absurd rfl h1
    | failed => exact absurd rfl h2
    | _ => rfl

/-- C69, as `C69_server`. -/
theorem C69_loose_server (hg : g.Loose) (h : SRun g cfg ks σ) {m : Msg N T} (hm : InRun g cfg m) (s : S)
    (chk : Nat → N → Check) {pick : Nat → Finset N → N} (hp : LegalPick pick) (now : Int) (e : PyErr) :
    σ.handle g cfg chk pick now m s = .error e ↔ Rejected σ.out s m e := by
  have hi := h.inv hg
  have good : GoodMsg g cfg m → ¬ Rejected σ.out s m e →
      (σ.handle g cfg chk pick now m s = .error e ↔ Rejected σ.out s m e) := by
    intro hgm hr
    obtain ⟨σ', e1, _⟩ := handle_ok hg hi hgm s chk hp now
    rw [e1]
    exact ⟨fun hc => (by cases hc), fun hc => absurd hc hr⟩
  cases m with
  | acquire t => exact good hm (fun hr => by cases hr)
  | blockFailed n w => exact good hm (fun hr => by cases hr)
  | clientException =>
    have : σ.handle g cfg chk pick now .clientException s = .error .userException := rfl
    rw [this]
    exact ⟨fun hc => (by cases hc; exact .exception), fun hc => (by cases hc; rfl)⟩
  | other =>
    have : σ.handle g cfg chk pick now .other s = .error .unexpectedMessage := rfl
    rw [this]
    exact ⟨fun hc => (by cases hc; exact .unknown), fun hc => (by cases hc; rfl)⟩
  | release n status =>
    by_cases hst : status = .success ∨ status = .failed
    · refine good ⟨hm, hst⟩ (fun hr => ?_)
      cases hr with
      | release _ h1 h2 => rcases hst with hst | hst <;> contradiction
    · have h1 : status ≠ .success := fun hc => hst (Or.inl hc)
      have h2 : status ≠ .failed := fun hc => hst (Or.inr hc)
      by_cases hh : holder σ.out n = some s
      · have hheld : Held (evs σ.out) n := (hi.held n).2 (by rw [hh]; exact Option.some_ne_none s)
        have hb := (hi.book n hm).trans hh
        have : σ.handle g cfg chk pick now (.release n status) s = .error .runtimeError := by
          simp only [Server.handle, Server.safeRelease, if_pos (validReturn_iff.2 hb), Server.release,
            C69_loose_scheduler hg hi.run hheld h1 h2 pick]
        rw [this]
        exact ⟨fun hc => (by cases hc; exact .release hh h1 h2), fun hc => (by cases hc; rfl)⟩
      · obtain ⟨σ', e1, _⟩ := C30_stale_return (cfg := cfg) hg h hm (Or.inl ⟨status, rfl⟩) hh chk pick now
        rw [e1]
        refine ⟨fun hc => (by cases hc), fun hc => ?_⟩
        cases hc
        contradiction

/-- C28, as `C28_contents`. -/
theorem C28_loose_contents (hg : g.Loose) (h : Run g tr st) :
    (∀ n ∈ st.rs.surface, Done tr n) ∧ (∀ n ∈ st.rs.boundary, Dead g tr n ∨ Orphan g tr n) ∧
    (∀ n d, Done tr n → d ∈ g.down n → ¬ Done tr d → ¬ Dead g tr d → ¬ Orphan g tr d →
      n ∈ st.rs.surface) ∧
    ((∀ n, ¬ Dead g tr n) → st.rs.boundary = ∅) := by
  obtain ⟨h1, _, _⟩ := run_lift hg h
  obtain ⟨c1, c2, c3, _⟩ := C28_contents (fed_ok hg) h1
  have d2 : ∀ n ∈ st.rs.boundary, Dead g tr n ∨ Orphan g tr n := by
    intro n hn
    have := c2 (some n) (RS.mem_boundary_lift.2 hn)
    rwa [dead_lift, orphan_lift] at this
  refine ⟨fun n hn => done_lift.1 (c1 (some n) (RS.mem_surface_lift.2 hn)), d2, fun n d a1 a2 a3 a4 a5 => ?_, ?_⟩
  · refine RS.mem_surface_lift.1 (c3 (some n) (some d) (done_lift.2 a1) ?_ ?_ ?_ ?_)
    · rw [fed_down]; exact List.mem_map_of_mem a2
    · rwa [done_lift]
    · rwa [dead_lift]
    · rwa [orphan_lift]
  · intro hd
    rw [Finset.eq_empty_iff_forall_notMem]
    intro n hn
    rcases d2 n hn with h1 | ⟨f, h1, _⟩
    · exact hd n h1
    · exact hd f h1

/-- C98, as `C98_no_overtaking`: a starved block, which is never reached, overtakes nobody and is overtaken. -/
theorem C98_loose_no_overtaking (hg : g.Loose) (h : Run g tr st) {pre mid rest : List (Ev N)} {e : Ev N}
    (he : tr = pre ++ (mid ++ e :: rest)) {a b : N} (ha : Ready g pre a) (hs : ¬ Starved g a) (hb : ¬ Ready g pre b)
    (ht : g.task a = g.task b) (hab : e = .hand b ∨ e = .skip b) : .hand a ∈ mid ∨ .skip a ∈ mid := by
  obtain ⟨h1, _, _⟩ := run_lift hg h
  have := C98_no_overtaking (fed_ok hg) h1 (pre := pre.map Ev.lift) (mid := mid.map Ev.lift) (rest := rest.map Ev.lift)
    (e := e.lift) (a := some a) (b := some b) (by rw [he]; simp) (ready_lift.2 ⟨ha, hs⟩) (fun hr => hb (ready_lift.1 hr).1)
    (congrArg some ht) (by rcases hab with rfl | rfl; exacts [Or.inl rfl, Or.inr rfl])
  rcases this with hm | hm
  · exact Or.inl ((mem_lift (e := .hand a)).1 hm)
  · exact Or.inr ((mem_lift (e := .skip a)).1 hm)

/-- C98, as `C98_retry_last`. -/
theorem C98_loose_retry_last (hg : g.Loose) (h : Run g tr st) {pre mid rest : List (Ev N)} {a b : N}
    (he : tr = pre ++ .bad b :: (mid ++ .hand b :: rest)) (ha : Ready g pre a) (hs : ¬ Starved g a)
    (ht : g.task a = g.task b) : .hand a ∈ mid ∨ .skip a ∈ mid := by
  have hb : Held pre b := (loose_legal hg h) pre (.bad b) _ he
  have h1 := C98_loose_no_overtaking hg h (pre := pre) (mid := .bad b :: mid) (rest := rest) (e := .hand b) (a := a)
    (b := b) (by rw [he]; rfl) ha hs (fun hr => hr.2.2.2.2 hb) ht (Or.inl rfl)
  simpa using h1

/-- C98, as `C98_server`. -/
theorem C98_loose_server (hg : g.Loose) (h : SRun g cfg ks σ) {pre mid rest : List (Out N T S)} {s : S} {a b : N}
    (he : σ.out = pre ++ (mid ++ .send s b :: rest)) (ha : Ready g (evs pre) a) (hs : ¬ Starved g a)
    (hb : ¬ Ready g (evs pre) b) (ht : g.task a = g.task b) : (∃ s', .send s' a ∈ mid) ∨ .skip a ∈ mid := by
  have hr := (h.inv hg).run
  have he' : evs σ.out = evs pre ++ (evs mid ++ .hand b :: evs rest) := by
    rw [he]
    simp [evs, toEv]
  rcases C98_loose_no_overtaking hg hr he' ha hs hb ht (Or.inl rfl) with hm | hm
  · obtain ⟨o, ho, hoe⟩ := List.mem_filterMap.1 hm
    cases o with
    | send s' n => cases hoe; exact Or.inl ⟨s', ho⟩
    | release n st => cases st <;> cases hoe
    | _ => cases hoe
  · obtain ⟨o, ho, hoe⟩ := List.mem_filterMap.1 hm
    cases o with
    | skip n => cases hoe; exact Or.inr ho
    | release n st => cases st <;> cases hoe
    | _ => cases hoe

/-- C90, as `C90_counters`. -/
theorem C90_loose_counters (hg : g.Loose) {ks : List (Server.Tick N T S × Bool)} (hk : ∀ k ∈ ks, GoodTick g cfg k.1)
    {σ : Server N T K S} (he : Server.interruptLoop g cfg ks (Server.start g false) = .ok σ) (t : T) :
    (σ.sched.states t).completed = cnt g t (Done (evs σ.out)) ∧
    (σ.sched.states t).failed = cnt g t (Dead g (evs σ.out)) ∧
    ∀ n c, holder σ.out n = some c → ¬ Done (evs σ.out) n ∧ ¬ Dead g (evs σ.out) n := by
  obtain ⟨ks₁, τ, _, h, e⟩ := interrupt_reach ks [] _ σ SRun.init hk he
  have hi := h.inv hg
  have hc := C19_loose_partial hg hi.run t
  have hd := fun n => C19_loose_disjoint_partial hg hi.run n
  have hh : ∀ n c, holder τ.out n = some c → ¬ Done (evs τ.out) n ∧ ¬ Dead g (evs τ.out) n := by
    intro n c hc
    have := (hd n).2.1 ((hi.held n).2 (by rw [hc]; exact Option.some_ne_none _))
    exact ⟨this.1, this.2.1⟩
  rcases e with rfl | rfl
  · exact ⟨hc.2.2.1, hc.2.2.2.2.1, hh⟩
  · exact ⟨hc.2.2.1, hc.2.2.2.2.1, hh⟩

/-- In `barren`, whose block 2 is starved, client 7 has block 0 and has returned it once; whatever status other than
SUCCESS and FAILED it reports now is rejected. -/
example : ∃ (ks : List (Server.Tick (Fin 5) (Fin 3) Nat)) (σ : Server (Fin 5) (Fin 3) (Fin 5) Nat),
    Ex.barren.Loose ∧ Starved Ex.barren 2 ∧ SRun Ex.barren Ex.barrenConf ks σ ∧ Held (evs σ.out) 0 ∧
    Rejected σ.out 7 (.release 0 .processing) .runtimeError := by
  have hx : (sexec Ex.barren Ex.barrenConf (ticks [acq 0 (7 : Nat), bad 0 7, acq 0 7])).map
      (fun σ => decide (Held (evs σ.out) 0 ∧ holder σ.out 0 = some 7)) = some true := by decide +kernel
  obtain ⟨σ, h, e⟩ := sexec_run (ticks_legal _) _ hx
  obtain ⟨e1, e2⟩ := of_decide_eq_true e
  exact ⟨_, σ, Ex.barren_loose, ⟨List.mem_finRange _, rfl, by decide⟩, h, e1, .release e2 (by decide) (by decide)⟩

end Verif
