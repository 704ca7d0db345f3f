import Verif.Props.LooseMore
import Verif.Props.Released

/-! # C88 and C98 for graphs with blocks that depend on nothing although their task depends on others -/

set_option linter.unusedSectionVars false

namespace Verif

open Spec

variable {N T K : Type} [DecidableEq N] [DecidableEq T] [DecidableEq K] {g : DGraph N T K}
variable {tr : List (Ev N)} {st : Sched N T K}

theorem served_lift (t : T) (l : List (Ev N)) : served g.fed (some t) (l.map Ev.lift) = (served g t l).map some := by
  induction l with
  | nil => rfl
  | cons e l ih =>
    have h : ∀ n : N, (g.fed.task (some n) = some t) = (g.task n = t) := fun n =>
      propext ⟨fun h => Option.some.inj h, fun h => congrArg some h⟩
    unfold served at ih ⊢
    cases e with
    | hand n => by_cases hn : g.task n = t <;> simp [Ev.lift, h, hn, ih]
    | skip n => by_cases hn : g.task n = t <;> simp [Ev.lift, h, hn, ih]
    | good n => simpa [Ev.lift] using ih
    | bad n => simpa [Ev.lift] using ih

theorem some_list (l : List (Option N)) (h : none ∉ l) : ∃ l' : List N, l = l'.map some := by
  induction l with
  | nil => exact ⟨[], rfl⟩
  | cons a l ih =>
    obtain ⟨l', rfl⟩ := ih (fun hm => h (List.mem_cons_of_mem _ hm))
    cases a with
    | none => exact absurd List.mem_cons_self h
    | some a => exact ⟨a :: l', rfl⟩

/-- C98, as `C98_in_order`: the blocks that wait are those that are ready and not starved. -/
theorem C98_loose_in_order (hg : g.Loose) (h : Run g tr st) {pre post : List (Ev N)} (he : tr = pre ++ post) (t : T) :
    ∃ waiting later still : List N, waiting.Nodup ∧
      (∀ n, n ∈ waiting ↔ Ready g pre n ∧ ¬ Starved g n ∧ g.task n = t) ∧
      still.Nodup ∧ (∀ n, n ∈ still ↔ Ready g tr n ∧ ¬ Starved g n ∧ g.task n = t) ∧
      waiting ++ later = served g t post ++ still := by
  obtain ⟨h1, _, _⟩ := run_lift hg h
  obtain ⟨w, l, s, w1, w2, s1, s2, e⟩ := C98_in_order (fed_ok hg) h1 (pre := pre.map Ev.lift) (post := post.map Ev.lift)
    (by rw [he, List.map_append]) (some t)
  obtain ⟨w, rfl⟩ := some_list w (fun hm => by cases ((w2 none).1 hm).2)
  obtain ⟨s, rfl⟩ := some_list s (fun hm => by cases ((s2 none).1 hm).2)
  rw [served_lift] at e
  have hl : none ∉ l := by
    intro hm
    have : none ∈ w.map some ++ l := List.mem_append_right _ hm
    rw [e] at this
    simp at this
  obtain ⟨l, rfl⟩ := some_list l hl
  have mem : ∀ (x : List N) (p : List (Ev N)), (∀ n, n ∈ x.map some ↔ Ready g.fed (p.map Ev.lift) n ∧ g.fed.task n = some t) →
      ∀ n, n ∈ x ↔ Ready g p n ∧ ¬ Starved g n ∧ g.task n = t := by
    intro x p hx n
    rw [← List.mem_map_of_injective (Option.some_injective N), hx, ready_lift, and_assoc]
    exact and_congr_right (fun _ => and_congr_right (fun _ =>
      ⟨fun h => Option.some.inj h, fun h => congrArg some h⟩))
  refine ⟨w, l, s, w1.of_map _, mem w pre w2, s1.of_map _, mem s tr s2, ?_⟩
  rw [← List.map_append, ← List.map_append] at e
  exact List.map_injective_iff.2 (Option.some_injective N) e

/-- C98, as `C98_bounded_wait`. -/
theorem C98_loose_bounded_wait (hg : g.Loose) (h : Run g tr st) {pre post : List (Ev N)} (he : tr = pre ++ post) {a : N}
    (ha : Ready g pre a) (hs : ¬ Starved g a) {ready : List N}
    (hr : ∀ n, Ready g pre n → ¬ Starved g n → g.task n = g.task a → n ∈ ready)
    (hl : ready.length ≤ (served g (g.task a) post).length) : .hand a ∈ post ∨ .skip a ∈ post := by
  obtain ⟨h1, _, _⟩ := run_lift hg h
  have := C98_bounded_wait (fed_ok hg) h1 (pre := pre.map Ev.lift) (post := post.map Ev.lift)
    (by rw [he, List.map_append]) (a := some a) (ready_lift.2 ⟨ha, hs⟩) (ready := ready.map some)
    (by
      intro n hn ht
      cases n with
      | none => cases ht
      | some n =>
        obtain ⟨k1, k2⟩ := ready_lift.1 hn
        exact List.mem_map_of_mem (hr n k1 k2 (Option.some.inj ht)))
    (by
      rw [show g.fed.task (some a) = some (g.task a) from rfl, served_lift]
      simpa using hl)
  rcases this with hm | hm
  · exact Or.inl ((mem_lift (e := .hand a)).1 hm)
  · exact Or.inr ((mem_lift (e := .skip a)).1 hm)

theorem updatedKeys_lift (ns : List N) : Sched.updatedKeys g.fed (ns.map some) = (Sched.updatedKeys g ns).map some := by
  have key : ∀ (ns : List N) (ks : List T),
      (ns.map some).foldl (fun ks n => if g.fed.task n ∈ ks then ks else ks ++ [g.fed.task n]) (ks.map some) =
      (ns.foldl (fun ks n => if g.task n ∈ ks then ks else ks ++ [g.task n]) ks).map some := by
    intro ns
    induction ns with
    | nil => intro ks; rfl
    | cons n ns ih =>
      intro ks
      rw [List.map_cons, List.foldl_cons, List.foldl_cons]
      have hc : (g.fed.task (some n) ∈ ks.map some) ↔ g.task n ∈ ks :=
        List.mem_map_of_injective (Option.some_injective T)
      by_cases hm : g.task n ∈ ks
      · rw [if_pos hm, if_pos (hc.2 hm), ih]
      · rw [if_neg hm, if_neg (fun h => hm (hc.1 h)), ← ih, List.map_append]
        rfl
  unfold Sched.updatedKeys
  have h := key ns []
  rw [List.map_nil] at h
  convert h

theorem updatedTasks_lift (hg : g.Loose) {n : N} (hn : Fine g n) (status : BlockStatus) :
    st.lift.updatedTasks g.fed (some n) status = (st.updatedTasks g n status).map some := by
  unfold Sched.updatedTasks
  rw [Sched.removeFromProcessing_lift]
  rcases hr : st.removeFromProcessing g n with e | st1
  · rfl
  · simp only [Except.map]
    cases status with
    | success =>
      simp only
      rw [show st1.lift.rs = st1.rs.lift from rfl, RS.markSuccess_lift hg hn.1 hn.2]
      rcases hs : RS.markSuccess g st1.rs n with e | ⟨l, rs⟩
      · rfl
      · simp only [Except.map]
        exact updatedKeys_lift l
    | failed =>
      simp only
      by_cases hm : g.maxRetries (g.task n) ≤ (st1.queues (g.task n)).retries (g.key n)
      · rw [if_pos hm, if_pos (show g.fed.maxRetries (g.fed.task (some n)) ≤
          (st1.lift.queues (g.fed.task (some n))).retries (g.fed.key (some n)) from hm)]
        rfl
      · rw [if_neg hm, if_neg (show ¬ g.fed.maxRetries (g.fed.task (some n)) ≤
          (st1.lift.queues (g.fed.task (some n))).retries (g.fed.key (some n)) from hm)]
        rfl
    | _ => rfl

private theorem fine_held (hg : g.Loose) (h : Run g tr st) {n : N} (hn : Held tr n) : Fine g n := by
  have : Ev.hand n ∈ tr := List.count_pos_iff.1 (by unfold Held at hn; omega)
  exact (run_lift hg h).2.2 _ this

private theorem newly_lift (hg : g.Loose) (h : Run g tr st) {e : Ev N}
    (hd : ∀ m, Done tr m → Done (tr ++ [e]) m) (hx : ∀ m, Dead g tr m → Dead g (tr ++ [e]) m) (t : T) :
    (∃ m, g.fed.task m = some t ∧ Ready g.fed (tr.map Ev.lift ++ [e.lift]) m ∧ ¬ Ready g.fed (tr.map Ev.lift) m) ↔
      ∃ m, g.task m = t ∧ Ready g (tr ++ [e]) m ∧ ¬ Ready g tr m := by
  rw [show tr.map Ev.lift ++ [e.lift] = (tr ++ [e]).map Ev.lift by simp]
  constructor
  · rintro ⟨m, h1, h2, h3⟩
    cases m with
    | none => cases h1
    | some m =>
      rw [ready_lift] at h2 h3
      exact ⟨m, Option.some.inj h1, h2.1, fun hr => h3 ⟨hr, h2.2⟩⟩
  · rintro ⟨m, h1, h2, h3⟩
    have hs : ¬ Starved g m := by
      intro hs
      refine h3 ⟨h2.1, ?_, fun hc => h2.2.2.1 (hd m hc), fun hc => h2.2.2.2.1 (hx m hc),
        fun hc => (fine_held hg h hc).2 hs⟩
      rw [hs.2.1]
      exact fun u hu => absurd hu List.not_mem_nil
    exact ⟨some m, congrArg some h1, ready_lift.2 ⟨h2, hs⟩, fun hr => h3 (ready_lift.1 hr).1⟩

/-- C88, as `C88_success`. -/
theorem C88_loose_success (hg : g.Loose) (h : Run g tr st) {n : N} (hn : Held tr n) :
    (st.updatedTasks g n .success).Nodup ∧
    ∀ t, t ∈ st.updatedTasks g n .success ↔
      ∃ m, g.task m = t ∧ Ready g (tr ++ [.good n]) m ∧ ¬ Ready g tr m := by
  obtain ⟨c1, c2⟩ := C88_success (fed_ok hg) (run_lift hg h).1 (held_lift.2 hn)
  rw [updatedTasks_lift hg (fine_held hg h hn)] at c1 c2
  refine ⟨c1.of_map _, fun t => ?_⟩
  rw [← List.mem_map_of_injective (Option.some_injective T), c2]
  exact newly_lift hg h (e := .good n) (fun m hm => (done_good tr n m).2 (Or.inl hm))
    (fun m hm => (dead_good tr n m).2 hm) t

/-- C88, as `C88_failure`. -/
theorem C88_loose_failure (hg : g.Loose) (h : Run g tr st) {n : N} (hn : Held tr n) :
    (st.updatedTasks g n .failed).Nodup ∧
    ∀ t, t ∈ st.updatedTasks g n .failed ↔
      ∃ m, g.task m = t ∧ Ready g (tr ++ [.bad n]) m ∧ ¬ Ready g tr m := by
  obtain ⟨c1, c2⟩ := C88_failure (fed_ok hg) (run_lift hg h).1 (held_lift.2 hn)
  rw [updatedTasks_lift hg (fine_held hg h hn)] at c1 c2
  refine ⟨c1.of_map _, fun t => ?_⟩
  rw [← List.mem_map_of_injective (Option.some_injective T), c2]
  exact newly_lift hg h (e := .bad n) (fun m hm => (done_bad tr n m).2 hm)
    (fun m hm => (dead_bad tr n m).2 (Or.inl hm)) t

/-- In `barren`, whose block 2 is starved and yet ready, block 0 has failed once and is handed out again. -/
example : ∃ (tr : List (Ev (Fin 5))) (st : Sched (Fin 5) (Fin 3) (Fin 5)), Ex.barren.Loose ∧ Run Ex.barren tr st ∧
    Held tr 0 ∧ Starved Ex.barren 2 ∧ Ready Ex.barren tr 2 := by
  have hx : (sexec Ex.barren Ex.barrenConf (ticks [acq 0 (7 : Nat), bad 0 7, acq 0 7])).map
      (fun σ => decide (Held (evs σ.out) 0 ∧ ¬ Done (evs σ.out) 2 ∧ ¬ Dead Ex.barren (evs σ.out) 2 ∧
        ¬ Held (evs σ.out) 2)) = some true := by decide +kernel
  obtain ⟨σ, h, e⟩ := sexec_run (ticks_legal _) _ hx
  obtain ⟨e1, e2, e3, e4⟩ := of_decide_eq_true e
  exact ⟨_, _, Ex.barren_loose, (h.inv Ex.barren_loose).run, e1, ⟨List.mem_finRange _, rfl, by decide⟩,
    ⟨List.mem_finRange _, fun u hu => absurd hu List.not_mem_nil, e2, e3, e4⟩⟩

end Verif
