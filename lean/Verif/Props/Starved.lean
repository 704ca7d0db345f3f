import Verif.Props.StarvedSched
import Verif.Props.PipelineRun
import Verif.Proofs.ServerProgress

/-! # Blocks that depend on nothing although their task depends on others: C15–C24, C27

`DGraph.OK` asks that every block of a task that requires others has an upstream block.  The theorems here do without
(`DGraph.Loose`): a block without upstream blocks is never handed out (it is not a root, `scheduler.py` 52-59, and no
other block makes it ready), nor is what comes after it; everything else is as for the other graphs. -/

set_option linter.unusedSectionVars false

namespace Verif

open Spec

variable {N T K : Type} [DecidableEq N] [DecidableEq T] [DecidableEq K] {g : DGraph N T K}
variable {tr : List (Ev N)} {st : Sched N T K}

/-- C20: when nothing is ready and nothing is held, every block has completed, failed permanently, is downstream of a
permanently failed block, or is starved or downstream of a starved block. -/
theorem C20_loose_partial (hg : g.Loose) (h : Run g tr st) (hr : st.getReadyTasks g = []) (hh : ∀ n, ¬ Held tr n) :
    ∀ n ∈ g.nodes, Done tr n ∨ Dead g tr n ∨ Orphan g tr n ∨ Hungry g n := by
  intro n hn
  obtain ⟨h1, _, _⟩ := run_lift hg h
  by_contra hc
  rw [not_or, not_or, not_or] at hc
  obtain ⟨c1, c2, c3, c4⟩ := hc
  have hidle := (loose_idle hg h).1 hr
  have hhf : ∀ x, ¬ Held (tr.map Ev.lift) x := by
    rintro (_ | x)
    · exact not_held_none
    · rw [held_lift]; exact hh x
  have hrf : ∀ x, ¬ Ready g.fed (tr.map Ev.lift) (some x) := by
    intro x hx
    rw [ready_lift] at hx
    exact hx.2 (hidle x hx.1)
  obtain ⟨a, ha1, ha2⟩ := ready_ancestor (fed_ok hg) hhf (mem_fed.2 hn) (by rw [done_lift]; exact c1)
    (by rw [dead_lift]; exact c2) (by rw [orphan_lift]; exact c3) (hrf n)
  rcases a with _ | a
  · exact c4 (anc_none.1 ha1)
  · exact hrf a ha2

/-- C27, exactly: if no block fails, then, when nothing is left to hand out or to wait for, those blocks have completed
that are neither starved nor downstream of a starved block. -/
theorem C27_exactly (hg : g.Loose) (h : Run g tr st) (hbad : ∀ n, .bad n ∉ tr) (hr : st.getReadyTasks g = [])
    (hh : ∀ n, ¬ Held tr n) {n : N} (hn : n ∈ g.nodes) : Done tr n ↔ ¬ Hungry g n := by
  constructor
  · rintro hd hu
    rcases hd with hd | hd <;> exact C27_hungry_never hg h hu _ hd rfl
  · intro hu
    rcases C20_loose_partial hg h hr hh n hn with h1 | h1 | ⟨f, h1, _⟩ | h1
    · exact h1
    · exact absurd h1.1 (hbad n)
    · exact absurd h1.1 (hbad f)
    · exact absurd h1 hu

/-- A task one of whose blocks is starved or downstream of a starved block is never done, as long as none of its
blocks has lost a block before it for good. -/
theorem C27_never_done (hg : g.Loose) (h : Run g tr st) {n : N} (hn : n ∈ g.nodes) (hu : Hungry g n)
    (ho : ∀ m ∈ g.nodes, g.task m = g.task n → ¬ Orphan g tr m) : (st.states (g.task n)).isDone = false := by
  obtain ⟨h1, _, _⟩ := run_lift hg h
  have hiff := C22_is_done_no_orphans (fed_ok hg) h1 (some (g.task n)) (by
    rintro (_ | m) hm ht
    · cases ht
    · rw [orphan_lift]
      exact ho m (mem_fed.1 hm) (Option.some.inj ht))
  by_contra hc
  have hd : (st.lift.states (some (g.task n))).isDone = true := by
    rw [← Bool.not_eq_false]; exact hc
  rcases hiff.1 hd (some n) (mem_fed.2 hn) rfl with h2 | h2
  · rw [done_lift] at h2
    rcases h2 with h2 | h2 <;> exact C27_hungry_never hg h hu _ h2 rfl
  · rw [dead_lift] at h2
    exact C27_hungry_never hg h hu _ h2.1 rfl

/-- C23: the result of a complete execution in terms of the outcomes only. -/
theorem C23_loose_partial (hg : g.Loose) (h : Run g tr st) (hr : st.getReadyTasks g = []) (hh : ∀ n, ¬ Held tr n)
    {good : N → Prop} (hc : Conforms g good tr) {n : N} (hn : n ∈ g.nodes) :
    (Done tr n ↔ good n ∧ (∀ a, Anc g a n → good a) ∧ ¬ Hungry g n) ∧
    (Dead g tr n ↔ ¬ good n ∧ (∀ a, Anc g a n → good a) ∧ ¬ Hungry g n) := by
  have up : (Done tr n ∨ Dead g tr n) → (∀ a, Anc g a n → good a) ∧ ¬ Hungry g n := by
    intro hd
    have he : ∃ e ∈ tr, e.node = n ∧ (e = .hand n ∨ e = .skip n) := by
      obtain ⟨h1, _, _⟩ := run_lift hg h
      have hl := h1.legal (fed_ok hg)
      have held : ∀ e ∈ tr, (e = .good n ∨ e = .bad n) → Ev.hand n ∈ tr := by
        intro e he hh
        obtain ⟨pre, post, hs⟩ := List.append_of_mem (mem_lift.2 he)
        have hal := hl pre e.lift post hs
        have hp : Held pre (some n) := by
          rcases hh with rfl | rfl <;> exact hal
        have : Ev.hand (some n) ∈ pre := List.count_pos_iff.1 (by unfold Held at hp; omega)
        refine mem_lift.1 ?_
        rw [hs]
        exact List.mem_append_left _ this
      rcases hd with (hd | hd) | hd
      · exact ⟨_, held _ hd (Or.inl rfl), rfl, Or.inl rfl⟩
      · exact ⟨_, hd, rfl, Or.inr rfl⟩
      · exact ⟨_, held _ hd.1 (Or.inr rfl), rfl, Or.inl rfl⟩
    obtain ⟨e, he1, he2, he3⟩ := he
    refine ⟨fun a ha => ?_, fun hu => C27_hungry_never hg h hu e he1 he2⟩
    obtain ⟨pre, post, hs⟩ := List.append_of_mem he1
    have hdone : Done pre a := C15_loose hg h (post := post) (by rcases he3 with rfl | rfl <;> simp [hs]) ha
    refine hc.1 a ?_
    rw [hs]
    exact hdone.imp (List.mem_append_left _) (List.mem_append_left _)
  have all : (∀ a, Anc g a n → good a) → ¬ Hungry g n → Done tr n ∨ Dead g tr n := by
    intro h1 h2
    rcases C20_loose_partial hg h hr hh n hn with h3 | h3 | ⟨f, h3, h4⟩ | h3
    · exact Or.inl h3
    · exact Or.inr h3
    · exact absurd (h1 f h4) (hc.2 f h3)
    · exact absurd h3 h2
  refine ⟨⟨fun hd => ⟨hc.1 n hd, up (Or.inl hd)⟩, ?_⟩, ⟨fun hd => ⟨hc.2 n hd, up (Or.inr hd)⟩, ?_⟩⟩
  · rintro ⟨h1, h2, h3⟩
    rcases all h2 h3 with h4 | h4
    · exact h4
    · exact absurd h1 (hc.2 n h4)
  · rintro ⟨h1, h2, h3⟩
    rcases all h2 h3 with h4 | h4
    · exact absurd (hc.1 n h4) h1
    · exact h4

theorem orphansOf_good {n : N} (pick : Nat → Finset N → N) (pick' : Nat → Finset (Option N) → Option N) :
    st.lift.orphansOf g.fed pick' (some n) .success = (st.orphansOf g pick n .success).image some := by
  unfold Sched.orphansOf
  rw [Sched.removeFromProcessing_lift]
  rcases st.removeFromProcessing g n with e | st1 <;> rfl

theorem orphansOf_bad (hg : g.Loose) {n : N} (hn : Fine g n) {pick : Nat → Finset N → N} (hp : LegalPick pick) :
    st.lift.orphansOf g.fed (RS.liftPick pick) (some n) .failed = (st.orphansOf g pick n .failed).image some := by
  unfold Sched.orphansOf
  rw [Sched.removeFromProcessing_lift]
  rcases st.removeFromProcessing g n with e | st1
  · rfl
  · simp only [Except.map]
    by_cases hm : g.maxRetries (g.task n) ≤ (st1.queues (g.task n)).retries (g.key n)
    · rw [if_pos hm]
      rw [if_pos (show g.fed.maxRetries (g.fed.task (some n)) ≤
        (st1.lift.queues (g.fed.task (some n))).retries (g.fed.key (some n)) from hm)]
      rw [show st1.lift.rs = st1.rs.lift from rfl, RS.markFailure_lift hg hn.1 hn.2 hp]
      rcases RS.markFailure g pick st1.rs n with e | ⟨o, rs⟩ <;> rfl
    · rw [if_neg hm]
      rw [if_neg (show ¬ g.fed.maxRetries (g.fed.task (some n)) ≤
        (st1.lift.queues (g.fed.task (some n))).retries (g.fed.key (some n)) from hm)]
      rfl

theorem runOrph_lift (hg : g.Loose) {rep : Finset N} (h : RunOrph g tr st rep) :
    RunOrph g.fed (tr.map Ev.lift) st.lift (rep.image some) := by
  have hrun := h.run
  induction h with
  | init => rw [← Sched.lift_init]; exact .init
  | @acquire tr st st' rep skips r chk t hr hacq ih =>
    obtain ⟨h1, h2, _⟩ := run_lift hg hr.run
    obtain ⟨l1, l2⟩ := Sched.acquireLoop_lift hg t chk (g.nodes.length + 1) 0 st [] h2 (by intro n hn; cases hn)
    unfold Sched.acquireBlock at hacq
    rw [hacq, List.map_nil] at l1
    have h5 : st.lift.acquireBlock g.fed (Sched.liftChk chk) (some t) = .ok (skips.map some, r.map some, st'.lift) := by
      unfold Sched.acquireBlock
      rw [show g.fed.nodes.length + 1 = g.nodes.length + 1 + 1 by simp [DGraph.fed]]
      rcases Sched.acquireLoop_more (g := g.fed) (some t) (Sched.liftChk chk) 1 (g.nodes.length + 1) 0 st.lift [] with h | ⟨h, _⟩
      · rw [h]; exact l1
      · rw [h] at l1; cases l1
    have := RunOrph.acquire (Sched.liftChk chk) (some t) (ih hr.run) h5
    rw [List.map_append]
    have he : (acquireEvents skips r).map Ev.lift = acquireEvents (skips.map some) (r.map some) := by
      unfold acquireEvents
      rw [List.map_append, List.map_map, List.map_map]
      rcases r with _ | r <;> rfl
    rw [he]
    exact this
  | @good tr st st' rep n pick hr hh hp hrel ih =>
    obtain ⟨_, _, h3⟩ := run_lift hg hr.run
    have hf : Fine g n := by
      have : Ev.hand n ∈ tr := List.count_pos_iff.1 (by unfold Held at hh; omega)
      exact h3 _ this
    rw [List.map_append, Finset.image_union, ← orphansOf_good pick (RS.liftPick pick)]
    exact RunOrph.good (RS.liftPick pick) (ih hr.run) (held_lift.2 hh) (RS.liftPick_legal hp)
      (by rw [Sched.release_good_lift hg hf pick, hrel]; rfl)
  | @bad tr st st' rep n pick hr hh hp hrel ih =>
    obtain ⟨_, _, h3⟩ := run_lift hg hr.run
    have hf : Fine g n := by
      have : Ev.hand n ∈ tr := List.count_pos_iff.1 (by unfold Held at hh; omega)
      exact h3 _ this
    rw [List.map_append, Finset.image_union, ← orphansOf_bad hg hf hp]
    exact RunOrph.bad (RS.liftPick pick) (ih hr.run) (held_lift.2 hh) (RS.liftPick_legal hp)
      (by rw [Sched.release_bad_lift hg hf hp, hrel]; rfl)

/-- C21, as `C21_orphans_exact_partial`: also blocks that could not have been handed out anyway are reported. -/
theorem C21_loose_partial (hg : g.Loose) {rep : Finset N} (h : RunOrph g tr st rep) (x : N) :
    x ∈ rep ↔ x ∈ g.nodes ∧ Orphan g tr x := by
  have := C21_orphans_exact_partial (fed_ok hg) (runOrph_lift hg h) (some x)
  rw [mem_fed, orphan_lift] at this
  rw [← this]
  simp

end Verif

namespace Verif.Props

open Verif Spec Pipeline

variable {d : Nat} {tasks : List (Task d)} {p : Pipeline d}
variable {tr : List (Ev (Block d))} {st : Sched (Block d) Nat (Nat × Int)}

/-! ### Pipelines -/

/-- C16 for all pipelines whose links agree in both directions. -/
theorem C16_linked_partial (hp : Pipeline.init tasks = .ok p) (hid : UniqueIds tasks)
    (hw : p.Wf) (hr : p.RootLevels) (hl : p.Linked) (h : Run p.view tr st) {x : Nat}
    {g : BGraph d} (hg : p.graphs x = some g) (hc : g.conflict = true) {a b : Block d}
    (ha : p.BlockOf x a) (hb : p.BlockOf x b) (hne : a ≠ b) (hha : Held tr a) (hhb : Held tr b) :
    ¬ Overlap a.readRoi b.writeRoi := by
  have hlo := view_loose (built_of_init hp hid).1 hw hr hl
  exact C16_first_time_partial hp hid hw hr h hg hc ha hb hne hha hhb
    ((C19_loose_disjoint_partial hlo h a).2.1 hha).1 ((C19_loose_disjoint_partial hlo h b).2.1 hhb).1

/-- C27 for all pipelines whose links agree in both directions: if no block fails and nothing is left to hand out or to
wait for, then all blocks have completed iff every block of every task that requires others has an upstream block: it
reads something that a block of a required task writes, or has to wait for another block of its own task. -/
theorem C27_linked_iff (hp : Pipeline.init tasks = .ok p) (hid : UniqueIds tasks)
    (hw : p.Wf) (hr : p.RootLevels) (hl : p.Linked) (h : Run p.view tr st)
    (hbad : ∀ n, .bad n ∉ tr) (hq : st.getReadyTasks p.view = []) (hh : ∀ n, ¬ Held tr n) :
    (∀ x b, p.BlockOf x b → Done tr b) ↔
    ∀ y b, p.BlockOf y b → p.tg.ups y ≠ [] →
      (∃ a, p.TaskUp a b) ∨ ∃ x ∈ p.tg.ups y, ∃ a, p.BlockOf x a ∧ Overlap a.writeRoi b.readRoi := by
  have hbt := (built_of_init hp hid).1
  have hlo := view_loose hbt hw hr hl
  obtain ⟨ns, n1, _, n3⟩ := blocks_spec hbt hw
  have i0 : p.view.nodes = ns := okOr_ok n1
  rw [← i0] at n3
  constructor
  · intro hall y b hb hne
    by_contra hc
    rw [not_or] at hc
    have hs : Starved p.view b := (starved_iff hbt hw hl).2
      ⟨y, hb, hne, fun a ha => hc.1 ⟨a, ha⟩, fun x hx a ha ho => hc.2 ⟨x, hx, a, ha, ho⟩⟩
    exact (C27_exactly hlo h hbad hq hh hs.1).1 (hall y b hb) ⟨b, hs, Or.inl rfl⟩
  · intro hfed x b hb
    refine (C27_exactly hlo h hbad hq hh ((n3 b).2 ⟨x, hb⟩)).2 ?_
    rintro ⟨s, hs, _⟩
    obtain ⟨y, h1, h2, h3, h4⟩ := (starved_iff hbt hw hl).1 hs
    rcases hfed y s h1 h2 with ⟨a, ha⟩ | ⟨z, hz, a, ha, ho⟩
    · exact h3 a ha
    · exact h4 z hz a ha ho

/-- C27 block by block: a block has completed iff neither it nor anything before it is without upstream blocks although
its task requires others. -/
theorem C27_linked_exactly (hp : Pipeline.init tasks = .ok p) (hid : UniqueIds tasks)
    (hw : p.Wf) (hr : p.RootLevels) (hl : p.Linked) (h : Run p.view tr st)
    (hbad : ∀ n, .bad n ∉ tr) (hq : st.getReadyTasks p.view = []) (hh : ∀ n, ¬ Held tr n) {x : Nat} {b : Block d}
    (hb : p.BlockOf x b) : Done tr b ↔ ∀ s y, (s = b ∨ Anc p.view s b) → p.BlockOf y s → p.tg.ups y ≠ [] →
      (∃ a, p.TaskUp a s) ∨ ∃ z ∈ p.tg.ups y, ∃ a, p.BlockOf z a ∧ Overlap a.writeRoi s.readRoi := by
  have hbt := (built_of_init hp hid).1
  have hlo := view_loose hbt hw hr hl
  obtain ⟨ns, n1, _, n3⟩ := blocks_spec hbt hw
  have i0 : p.view.nodes = ns := okOr_ok n1
  rw [← i0] at n3
  rw [C27_exactly hlo h hbad hq hh ((n3 b).2 ⟨x, hb⟩)]
  constructor
  · intro hu s y hsb hs hne
    by_contra hc
    rw [not_or] at hc
    exact hu ⟨s, (starved_iff hbt hw hl).2
      ⟨y, hs, hne, fun a ha => hc.1 ⟨a, ha⟩, fun x hx a ha ho => hc.2 ⟨x, hx, a, ha, ho⟩⟩, hsb⟩
  · rintro hall ⟨s, hs, hsb⟩
    obtain ⟨y, h1, h2, h3, h4⟩ := (starved_iff hbt hw hl).1 hs
    rcases hall s y hsb h1 h2 with ⟨a, ha⟩ | ⟨z, hz, a, ha, ho⟩
    · exact h3 a ha
    · exact h4 z hz a ha ho

/-- A pipeline to which these theorems apply: the first task covers `[0,2)`, the second one, which requires it, `[0,4)`;
two blocks have completed in each of them, and a block is left. -/
example : ∃ (p : Pipeline 1) (tr : List (Ev (Block 1))) (st : Sched (Block 1) Nat (Nat × Int)) (b : Block 1),
    p.view.Loose ∧ p.Linked ∧ Run p.view tr st ∧ (∀ n, .bad n ∉ tr) ∧ (∀ n, ¬ Held tr n) ∧
    st.getReadyTasks p.view = [] ∧ p.BlockOf 1 b ∧ Hungry p.view b := by
  obtain ⟨tasks, p, h1, h2, h3, h4, h5, tr, st, b, h6, h7, h8, h9, h10, h11, _⟩ := C27_false_no_upstream
  have hbt := (built_of_init h1 h2).1
  have hlo := view_loose hbt h3 h4 h5
  obtain ⟨ns, n1, _, n3⟩ := blocks_spec hbt h3
  have i0 : p.view.nodes = ns := okOr_ok n1
  rw [← i0] at n3
  refine ⟨p, tr, st, b, hlo, h5, h6, h7, h8, h9, h10, ?_⟩
  by_contra hc
  exact h11 ((C27_exactly hlo h6 h7 h9 h8 ((n3 b).2 ⟨1, h10⟩)).2 hc)

end Verif.Props
