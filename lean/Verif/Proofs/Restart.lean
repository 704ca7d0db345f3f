import Verif.Spec.Restart
import Verif.Proofs.Data
import Verif.Proofs.AnyGraph

/-! # Invariant of computations with restarts -/

namespace Verif

open Spec

variable {N T K L V : Type} [DecidableEq N] [DecidableEq T] [DecidableEq K] [DecidableEq L] {g : DGraph N T K}
  {R W : N → L → Prop} {P : N → Prog L V} {D₀ D : L → V} {order : List N} {tr : List (Ev N)} {st : Sched N T K}
  {cur : N → Prog L V} {M : N → Prop}

/-- The current run. -/
theorem RestartRun.run (h : RestartRun g P D₀ tr st D cur M) : Run g tr st := by
  induction h with
  | init => exact .init
  | acquire chk t _ _ ha ih => exact .acquire chk t ih ha
  | step _ _ _ ih => exact ih
  | mark _ _ _ ih => exact ih
  | good pick _ h1 h2 _ h3 ih => exact .good pick ih h1 h2 h3
  | bad pick _ h1 h2 h3 ih => exact .bad pick ih h1 h2 h3
  | restart _ _ => exact .init

/-- What is known about the computation; `H` are the blocks that were handed out in any run. -/
structure RestartInv (g : DGraph N T K) (R W : N → L → Prop) (D₀ F : L → V) (H : N → Prop) (tr : List (Ev N))
    (D : L → V) (cur : N → Prog L V) (M : N → Prop) : Prop where
  off : ∀ l, (∀ n ∈ g.nodes, ¬ W n l) → D l = D₀ l
  node : ∀ n, H n → n ∈ g.nodes
  hist : ∀ n, .hand n ∈ tr → H n
  fresh : ∀ n ∈ g.nodes, ¬ H n → ∀ l, W n l → D l = D₀ l
  marked : ∀ n, M n → H n ∧ ∀ l, W n l → D l = F l
  up : ∀ n, H n → ∀ a, Anc g a n → M a
  done : ∀ n, Done tr n → M n
  held : ∀ n, Held tr n → (cur n).Uses (R n) (W n) ∧ (∀ l, W n l → (cur n).run D l = F l) ∧ (M n → cur n = .done)

omit [DecidableEq T] [DecidableEq K] [DecidableEq L] in
theorem held_hand {n : N} (h : Held tr n) : .hand n ∈ tr := by
  unfold Held at h
  exact List.count_pos_iff.1 (by omega)

omit [DecidableEq T] [DecidableEq K] [DecidableEq L] in
theorem held_before_skips {skips : List N} {m : N} (h : Held (tr ++ skips.map .skip) m) : Held tr m := by
  have h1 : (skips.map Ev.skip).count (.good m) = 0 := List.count_eq_zero.2 (by simp)
  have h2 : (skips.map Ev.skip).count (.bad m) = 0 := List.count_eq_zero.2 (by simp)
  have h3 : (skips.map Ev.skip).count (.hand m) = 0 := List.count_eq_zero.2 (by simp)
  unfold Held at h ⊢
  rw [List.count_append, List.count_append, List.count_append, h1, h2, h3] at h
  exact h

section
variable (hg : g.Loose) (hd : Disciplined g R W P) (ho : Topological g order) {H : N → Prop}

omit [DecidableEq T] [DecidableEq K] in
/-- All blocks upstream of a block that is ready are marked. -/
theorem RestartInv.anc {F : L → V} (hi : RestartInv g R W D₀ F H tr D cur M) {n : N} (hr : ∀ u ∈ g.up n, Done tr u)
    {a : N} (ha : Anc g a n) : M a := by
  rcases Relation.TransGen.tail'_iff.1 ha with ⟨u, h1, h2⟩
  rcases Relation.reflTransGen_iff_eq_or_transGen.1 h1 with rfl | h3
  · exact hi.done _ (hr _ h2)
  · exact hi.up u (hi.marked u (hi.done u (hr u h2))).1 a h3

omit [DecidableEq T] [DecidableEq K] in
include hg hd ho in
/-- A block that is handed out finds everything as it should be. -/
theorem RestartInv.start (hi : RestartInv g R W D₀ (oneByOne P order D₀) H tr D cur M)
    (hR : ∀ n ∈ g.nodes, Restartable (W n) (P n)) {n : N} (hn : n ∈ g.nodes) (hr : ∀ u ∈ g.up n, Done tr u)
    (hm : ¬ M n) : ∀ l, W n l → (P n).run D l = oneByOne P order D₀ l := by
  intro l hlw
  obtain ⟨pre, post, e⟩ := List.append_of_mem ((ho.mem n).2 hn)
  rw [oneByOne_at hd ho e hlw]
  have hreads : ∀ x, R n x → ¬ W n x → D x = oneByOne P pre D₀ x := by
    intro x hx hnx
    by_cases hw : ∃ a ∈ g.nodes, W a x
    · obtain ⟨a, ha, hax⟩ := hw
      have hne : a ≠ n := fun h => hnx (h ▸ hax)
      rcases hd.ordered a ha n hn x hax hx hne with h | h
      · rw [(hi.marked a (hi.anc hr h)).2 x hax]
        exact oneByOne_earlier hd ho e (ho.before hg h hn e) hax
      · rw [hi.fresh a ha (fun hh => hm (hi.up a hh n h)) x hax]
        exact (oneByOne_later hd ho e (List.mem_cons_of_mem _ (ho.after hg h ha e)) hax).symm
    · have hw' : ∀ a ∈ g.nodes, ¬ W a x := fun a ha h => hw ⟨a, ha, h⟩
      rw [hi.off x hw']
      exact (oneByOne_frame (R := R) (W := W) (fun m hm => hd.uses m (ho.mem_split e (by simp [hm])))
        (fun m hm => hw' m (ho.mem_split e (by simp [hm]))) _).symm
  classical
  rw [hR n hn D (fun x => if W n x then oneByOne P pre D₀ x else D x) (fun x hx => (if_neg hx).symm) l hlw]
  refine Prog.run_congr (hd.uses n hn) (fun x hx => ?_) l (Or.inr hlw)
  by_cases hw : W n x
  · exact if_pos hw
  · rw [if_neg hw]
    exact hreads x (hx.resolve_right hw) hw

omit [DecidableEq T] [DecidableEq K] in
include hd in
theorem RestartInv.step (hi : RestartInv g R W D₀ (oneByOne P order D₀) H tr D cur M)
    {n : N} (hn : Held tr n) {q : Prog L V} {D' : L → V} (hs : (cur n).step D = some (q, D')) :
    RestartInv g R W D₀ (oneByOne P order D₀) H tr D' (upd cur n q) M := by
  obtain ⟨c1, c2, c3⟩ := hi.held n hn
  obtain ⟨s1, s2, s3⟩ := Prog.uses_step c1 hs
  have hnm : ¬ M n := fun h => by
    rw [c3 h] at hs
    cases hs
  have hnH := hi.hist n (held_hand hn)
  have hnn := hi.node n hnH
  have hsame : ∀ l, ¬ W n l → D' l = D l := fun l hw => by
    by_contra h
    exact hw (s2 l h)
  have hother : ∀ m ∈ g.nodes, m ≠ n → ∀ l, W m l → D' l = D l := fun m hm hne l hw =>
    hsame l (fun h' => hne (hd.apart m hm n hnn l hw h'))
  refine ⟨fun l h => ?_, hi.node, hi.hist, fun m hm h l hw => ?_, fun m h => ⟨(hi.marked m h).1, fun l hw => ?_⟩, hi.up,
    hi.done, fun m h => ?_⟩
  · rw [hsame l (h n hnn), hi.off l h]
  · rw [hother m hm (fun e => h (e ▸ hnH)) l hw, hi.fresh m hm h l hw]
  · rw [hother m (hi.node m (hi.marked m h).1) (fun e => hnm (e ▸ h)) l hw, (hi.marked m h).2 l hw]
  · by_cases e : m = n
    · subst e
      have eq : upd cur m q m = q := if_pos rfl
      rw [eq, s3]
      exact ⟨s1, c2, fun h => absurd h hnm⟩
    · have eq : upd cur n q m = cur m := if_neg e
      have hmH := hi.hist m (held_hand h)
      have hmn := hi.node m hmH
      obtain ⟨d1, d2, d3⟩ := hi.held m h
      rw [eq]
      refine ⟨d1, fun l hw => ?_, d3⟩
      rw [← d2 l hw]
      by_cases hmm : M m
      · rw [d3 hmm]
        exact hother m hmn e l hw
      · refine Prog.run_congr d1 (fun x hx => hsame x (fun hnx => ?_)) l (Or.inr hw)
        rcases hx with hx | hx
        · rcases hd.ordered n hnn m hmn x hnx hx (Ne.symm e) with h' | h'
          · exact hnm (hi.up m hmH n h')
          · exact hmm (hi.up n hnH m h')
        · exact e (hd.apart m hmn n hnn x hx hnx)

end

theorem RestartRun.inv (hg : g.Loose) (hd : Disciplined g R W P) (ho : Topological g order)
    (hR : ∀ n ∈ g.nodes, Restartable (W n) (P n)) (h : RestartRun g P D₀ tr st D cur M) :
    ∃ H, RestartInv g R W D₀ (oneByOne P order D₀) H tr D cur M := by
  induction h with
  | init =>
    exact ⟨fun _ => False, fun _ _ => rfl, fun _ h => h.elim, fun n h => (by cases h), fun _ _ _ _ _ => rfl,
      fun _ h => h.elim, fun _ h => h.elim, fun n h => (by rcases h with h | h <;> cases h),
      fun n h => absurd h (by simp [Held])⟩
  | @acquire tr st st' D cur M skips r chk t hr hchk hacq ih =>
    obtain ⟨H, hi⟩ := ih
    have hl := loose_legal hg (Run.acquire chk t hr.run hacq)
    obtain ⟨more, e1, e2, e3⟩ := acquireLoop_checks t chk _ _ hacq
    have hsk : ∀ n ∈ skips, M n := by
      intro n hn
      rw [e1, List.nil_append] at hn
      obtain ⟨i, hi'⟩ := List.mem_iff_getElem?.1 hn
      exact (hchk _ n).1 (e2 i n hi')
    have hdone : ∀ n, Done (tr ++ acquireEvents skips r) n → M n := by
      intro n hn
      have : Done tr n ∨ n ∈ skips := by
        cases r <;> simpa [Done, acquireEvents, or_assoc] using hn
      rcases this with h | h
      · exact hi.done n h
      · exact hsk n h
    have hheld : ∀ m, r ≠ some m → Held (tr ++ acquireEvents skips r) m → Held tr m := by
      intro m hm h
      cases r with
      | none => exact held_before_skips (by simpa [acquireEvents] using h)
      | some n =>
        have hne : n ≠ m := fun e => hm (e ▸ rfl)
        refine held_before_skips (skips := skips) ?_
        unfold Held at h ⊢
        have e : tr ++ acquireEvents skips (some n) = (tr ++ skips.map .skip) ++ [.hand n] := by simp [acquireEvents]
        rw [e, List.count_append, List.count_append, List.count_append] at h
        simpa [hne] using h
    cases r with
    | none =>
      refine ⟨H, hi.off, hi.node, fun n hn => hi.hist n (by simpa [acquireEvents] using hn), hi.fresh, hi.marked, hi.up,
        hdone, fun n hn => ?_⟩
      rw [if_neg (by simp)]
      exact hi.held n (hheld n (by simp) hn)
    | some n =>
      have hnm : ¬ M n := fun h => e3 n rfl ((hchk _ n).2 h)
      have e : tr ++ acquireEvents skips (some n) = (tr ++ skips.map .skip) ++ [.hand n] := by simp [acquireEvents]
      have hrd : Ready g (tr ++ skips.map .skip) n := hl _ (.hand n) [] e
      have hi2 : RestartInv g R W D₀ (oneByOne P order D₀) H (tr ++ skips.map .skip) D cur M := by
        refine ⟨hi.off, hi.node, fun m hm => hi.hist m (by simpa using hm), hi.fresh, hi.marked, hi.up, fun m hm => ?_,
          fun m hm => hi.held m ?_⟩
        · exact hdone m (by rw [e]; exact hm.imp (List.mem_append_left _) (List.mem_append_left _))
        · exact held_before_skips hm
      have hst := hi2.start hg hd ho hR hrd.1 hrd.2.1 hnm
      refine ⟨fun m => m = n ∨ H m, hi.off, fun m hm => hm.elim (fun h => h ▸ hrd.1) (hi.node m), fun m hm => ?_,
        fun m hm h => hi.fresh m hm (fun h' => h (Or.inr h')), fun m hm => ⟨Or.inr (hi.marked m hm).1, (hi.marked m hm).2⟩,
        fun m hm a ha => ?_, hdone, fun m hm => ?_⟩
      · rw [e] at hm
        rcases List.mem_append.1 hm with h | h
        · exact Or.inr (hi2.hist m h)
        · have : m = n := by simpa using h
          exact Or.inl this
      · rcases hm with rfl | hm
        · exact hi2.anc hrd.2.1 ha
        · exact hi.up m hm a ha
      · by_cases em : n = m
        · subst em
          rw [if_pos rfl]
          exact ⟨hd.uses n hrd.1, hst, fun h => absurd h hnm⟩
        · rw [if_neg (fun h => em (Option.some.inj h))]
          exact hi.held m (hheld m (fun h => em (Option.some.inj h)) hm)
  | step hr hn hs ih =>
    obtain ⟨H, hi⟩ := ih
    exact ⟨H, hi.step hd hn hs⟩
  | @mark tr st D cur M n hr hh hc ih =>
    obtain ⟨H, hi⟩ := ih
    have hn := hi.held n hh
    refine ⟨H, hi.off, hi.node, hi.hist, hi.fresh, fun m hm => ?_, fun m hm a ha => Or.inr (hi.up m hm a ha),
      fun m hm => Or.inr (hi.done m hm), fun m hm => ?_⟩
    · rcases hm with rfl | hm
      · refine ⟨hi.hist m (held_hand hh), fun l hl => ?_⟩
        have := hn.2.1 l hl
        rw [hc] at this
        exact this
      · exact hi.marked m hm
    · obtain ⟨d1, d2, d3⟩ := hi.held m hm
      exact ⟨d1, d2, fun h => h.elim (fun e => e ▸ hc) d3⟩
  | @good tr st st' D cur M n pick hr hh hp hm hx ih =>
    obtain ⟨H, hi⟩ := ih
    refine ⟨H, hi.off, hi.node, fun m h => hi.hist m (by simpa using h), hi.fresh, hi.marked, hi.up, fun m h => ?_,
      fun m h => hi.held m ?_⟩
    · by_cases e : m = n
      · exact e ▸ hm
      · exact hi.done m (by simpa [Done, e] using h)
    · unfold Held at h ⊢
      have h1 : (tr ++ [Ev.good n]).count (.hand m) = tr.count (.hand m) := by simp
      have h2 : tr.count (.good m) ≤ (tr ++ [Ev.good n]).count (.good m) := by simp
      have h3 : tr.count (.bad m) ≤ (tr ++ [Ev.good n]).count (.bad m) := by simp
      omega
  | @bad tr st st' D cur M n pick hr hh hp hx ih =>
    obtain ⟨H, hi⟩ := ih
    refine ⟨H, hi.off, hi.node, fun m h => hi.hist m (by simpa using h), hi.fresh, hi.marked, hi.up, fun m h => ?_,
      fun m h => hi.held m ?_⟩
    · exact hi.done m (by simpa [Done] using h)
    · unfold Held at h ⊢
      have h1 : (tr ++ [Ev.bad n]).count (.hand m) = tr.count (.hand m) := by simp
      have h2 : tr.count (.good m) ≤ (tr ++ [Ev.bad n]).count (.good m) := by simp
      have h3 : tr.count (.bad m) ≤ (tr ++ [Ev.bad n]).count (.bad m) := by simp
      omega
  | restart _ ih =>
    obtain ⟨H, hi⟩ := ih
    exact ⟨H, hi.off, hi.node, fun n h => (by cases h), hi.fresh, hi.marked, hi.up,
      fun n h => (by rcases h with h | h <;> cases h), fun n h => absurd h (by simp [Held])⟩

end Verif
