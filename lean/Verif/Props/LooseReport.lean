import Verif.Props.LooseOrder
import Verif.Props.Summary

/-! # C88 and C100 for graphs with blocks that depend on nothing although their task depends on others -/

set_option linter.unusedSectionVars false

namespace Verif

open Spec

variable {N T K S : Type} [DecidableEq N] [DecidableEq T] [DecidableEq K] [DecidableEq S]
  {g : DGraph N T K} {c : SysConf T} {P : Sys N T K S → SysEv N T S → Prop} {es : List (SysEv N T S)}
  {x : Sys N T K S} {tr : List (Ev N)} {st st' : Sched N T K}

/-- C88, as `C88_ready_count`. -/
theorem C88_loose_ready_count (hg : g.Loose) (h : Run g tr st) {n : N} (hn : Held tr n)
    {pick : Nat → Finset N → N} (hp : LegalPick pick) {status : BlockStatus}
    (hrel : st.releaseBlock g pick n status = .ok st') (t : T) :
    t ∈ st.updatedTasks g n status ↔ (st.states t).ready < (st'.states t).ready := by
  have hf : Fine g n := (run_lift hg h).2.2 _ (List.count_pos_iff.1 (by unfold Held at hn; omega) : Ev.hand n ∈ tr)
  have hl : st.lift.releaseBlock g.fed (RS.liftPick pick) (some n) status = .ok st'.lift := by
    by_cases h1 : status = .success
    · subst h1
      rw [Sched.release_good_lift hg hf pick, hrel]
      rfl
    · by_cases h2 : status = .failed
      · subst h2
        rw [Sched.release_bad_lift hg hf hp, hrel]
        rfl
      · rw [C69_loose_scheduler hg h hn h1 h2] at hrel
        cases hrel
  have := C88_ready_count (fed_ok hg) (run_lift hg h).1 (held_lift.2 hn) (RS.liftPick_legal hp) hl (some t)
  rw [updatedTasks_lift hg hf, List.mem_map_of_injective (Option.some_injective T)] at this
  exact this

private theorem all_iff (t : T) :
    cnt g t (Done tr) = cnt g t (fun _ => True) ↔ ∀ n ∈ g.nodes, g.task n = t → Done tr n := by
  have e : cnt g t (fun n => Done tr n ∨ ¬ Done tr n) = cnt g t (Done tr) + cnt g t (fun n => ¬ Done tr n) :=
    cnt_or (fun n hn => not_not.2 hn)
  have e2 : cnt g t (fun n => Done tr n ∨ ¬ Done tr n) = cnt g t (fun _ => True) :=
    cnt_congr (fun n _ _ => iff_of_true (em _) trivial)
  have e3 := cnt_eq_zero (g := g) (t := t) (P := fun n => ¬ Done tr n)
  simp only [not_not] at e3
  rw [← e3]
  omega

private theorem right_of (hg : g.Loose) (h : Run g tr st)
    {now : String → TState} {u : String} {t : T} (hnow : now u = st.states t) {m : Monitor N}
    {s : Summary N} (hs : m.sums u = some s) {r : Monitor.Report N} (hr : m.report now u = some r) :
    RightReport g tr t s.failures r ∧ r.orphaned = (st.states t).orphaned := by
  obtain ⟨_, _, h3, h4, h5, h6⟩ := C19_loose_partial hg h t
  unfold Monitor.report at hr
  rw [hs] at hr
  cases hr
  refine ⟨⟨?_, ?_, ?_, ?_, ⟨List.take_prefix _ _, ?_⟩, ?_, ?_⟩, by rw [hnow]⟩
  · rw [hnow]; exact h6
  · rw [hnow]; exact h3
  · rw [hnow]; exact h4
  · rw [hnow]; exact h5
  · simp only [Monitor.listed, List.length_take]
    by_cases hl : 100 ≤ s.failures.length
    · left; omega
    · right; exact List.take_of_length_le (by omega)
  · simp only [Monitor.listed, List.length_take]
    split_ifs <;> omega
  · simp only [Monitor.allProcessed, beq_iff_eq, hnow, h3, h6]
    exact all_iff t

private theorem sums_of {m : Monitor N} {now : String → TState} {u : String} {r : Monitor.Report N}
    (hr : m.report now u = some r) : ∃ s, m.sums u = some s := by
  unfold Monitor.report at hr
  cases hs : m.sums u with
  | none => rw [hs] at hr; cases hr
  | some s => exact ⟨s, rfl⟩

/-- C100, as `C100_report`: a task with a starved block, which is never processed, is not reported as processed. -/
theorem C100_loose_report (hg : g.Loose) (hnd : c.cfg.served.Nodup) (hP : ∀ x e, P x e → FromWorkers g x e)
    (h : SysRun g c P es x) (name : T → String) (hname : Function.Injective name) (st : Nat → TState)
    {now : String → TState} {t : T} (hnow : now (name t) = x.srv.sched.states t) {m : Monitor N}
    (hm : (Monitor.init : Monitor N).run (monEvs g name st x.srv.out) = .ok m) {r : Monitor.Report N}
    (hr : m.report now (name t) = some r) :
    RightReport g (evs x.srv.out) t (reported g t x.srv.out) r ∧
    cnt g t (Orphan g (evs x.srv.out)) ≤ r.orphaned ∧
    (r.orphaned = 0 ↔ ∀ n ∈ g.nodes, g.task n = t → ¬ Orphan g (evs x.srv.out) n) ∧
    ((∃ n ∈ g.nodes, g.task n = t ∧ Starved g n) → r.success = false) := by
  obtain ⟨ks, hs⟩ := h.srun
  obtain ⟨s, e⟩ := sums_of hr
  have hrun := (hs.inv hg).run
  have hf := mon_failures name hname st x.srv.out (SysRun.monInv hg hnd hP h).order
    (fun t => (C34_announced_once hg hs t).1) hm t s e
  obtain ⟨h1, h2⟩ := right_of hg hrun hnow e hr
  rw [hf] at h1
  rw [h2]
  refine ⟨h1, (C22_loose_orphan_count_lower hg hrun t).1, (C22_loose_orphan_count_lower hg hrun t).2, ?_⟩
  rintro ⟨n, hn, ht, hst⟩
  rw [Bool.eq_false_iff]
  intro hc
  rcases h1.success.1 hc n hn ht with hd | hd
  · exact ((run_lift hg hrun).2.2 _ hd).2 hst
  · exact ((run_lift hg hrun).2.2 _ hd).2 hst

/-- C100, partial, as `C100_orphans_partial`; the full claim has no `OrphanExact` hypothesis and is false
(`C100_false`). -/
theorem C100_loose_orphans_partial (hg : g.Loose) (h : SysRun g c P es x) (hx : OrphanExact g (evs x.srv.out))
    {now : String → TState} {t : T} {u : String} (hnow : now u = x.srv.sched.states t) {m : Monitor N}
    {r : Monitor.Report N} (hr : m.report now u = some r) : r.orphaned = cnt g t (Orphan g (evs x.srv.out)) := by
  obtain ⟨ks, hs⟩ := h.srun
  obtain ⟨s, e⟩ := sums_of hr
  have hrun := (hs.inv hg).run
  rw [(right_of hg hrun hnow e hr).2]
  exact C22_loose_orphan_count_partial hg hrun hx t

/-- In `barren` task 1 is started once block 0 has been processed; its block 1 is processed, its block 2 is starved. -/
example : ∃ (es : List (SysEv (Fin 5) (Fin 3) Nat)) (x : Sys (Fin 5) (Fin 3) (Fin 5) Nat),
    Ex.barren.Loose ∧ Ex.barrenConf.served.Nodup ∧
    SysRun Ex.barren ⟨Ex.barrenConf, fun _ => 4, 3⟩ (FromWorkers Ex.barren) es x ∧
    .taskStart 1 ∈ x.srv.out ∧ Done (evs x.srv.out) 1 ∧ (∀ f, ¬ Dead Ex.barren (evs x.srv.out) f) ∧
    Starved Ex.barren 2 ∧ Ex.barren.task 2 = 1 := by
  have hx : (sysExec Ex.barren ⟨Ex.barrenConf, fun _ => 4, 3⟩ Ex.fromSent
      (([.msg (.acquire 0) 10, .loop [] [], .msg (.release 0 .success) 10, .loop [] [], .msg (.acquire 1) 11,
        .loop [] [], .msg (.release 1 .success) 11, .loop [] []] :
        List (SimpleEv (Fin 5) (Fin 3) Nat)).map SimpleEv.ev)).map (fun r =>
      decide (.taskStart 1 ∈ r.1.srv.out ∧ Done (evs r.1.srv.out) 1 ∧
        ∀ f, ¬ Dead Ex.barren (evs r.1.srv.out) f)) = some true := by
    decide +kernel
  obtain ⟨x, ns, h, _, e⟩ := sysExec_run (Ex.fromSent_workers Ex.barren) (simple_legal _) _ hx
  obtain ⟨e1, e2, e3⟩ := of_decide_eq_true e
  exact ⟨_, x, Ex.barren_loose, by decide, h, e1, e2, e3, ⟨List.mem_finRange _, rfl, by decide⟩, rfl⟩

end Verif
