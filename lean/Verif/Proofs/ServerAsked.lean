import Verif.Proofs.ClusterReturn
import Verif.Props.ServerStop

/-! # Requests after requests -/

set_option linter.unusedSectionVars false

namespace Verif

open Spec

variable {N T K S : Type} [DecidableEq N] [DecidableEq T] [DecidableEq K] [DecidableEq S]
  {g : DGraph N T K} {cfg : SConf T} {σ σ' : Server N T K S}

/-- Who loses a block has it taken back. -/
theorem release_of_lost {a os : List (Out N T S)} {n : N} (h : holder (a ++ os) n = none)
    (hb : holder a n ≠ none ∨ ∃ s, .send s n ∈ os) : ∃ st, .release n st ∈ os := by
  induction os using List.reverseRecOn with
  | nil =>
    rcases hb with hb | ⟨s, hb⟩
    · exact absurd (by simpa using h) hb
    · cases hb
  | append_singleton os o ih =>
    rw [← List.append_assoc, holder_append] at h
    simp only [List.foldl_cons, List.foldl_nil] at h
    have hgo : holder (a ++ os) n = none → (∀ s, o ≠ .send s n) → ∃ st, .release n st ∈ os ++ [o] := by
      intro h1 h2
      obtain ⟨st, h3⟩ := ih h1 (hb.imp_right (fun ⟨s, hs⟩ => by
        rcases List.mem_append.1 hs with hs | hs
        · exact ⟨s, hs⟩
        · exact absurd (List.mem_singleton.1 hs).symm (h2 s)))
      exact ⟨st, List.mem_append_left _ h3⟩
    cases o with
    | send s m =>
      simp only [holderStep] at h
      split_ifs at h with hm
      exact hgo h (fun s' e => by cases e; exact hm rfl)
    | release m st =>
      by_cases hm : m = n
      · subst hm; exact ⟨st, by simp⟩
      · simp only [holderStep, hm, if_false] at h
        exact hgo h (fun s' e => by cases e)
    | _ => exact hgo h (fun s' e => by cases e)

/-- A new answer. -/
theorem answer_mem {t : T} {s : S} {os : List (Out N T S)} (h : answers g t s os ≠ 0) :
    (∃ n, g.task n = t ∧ .send s n ∈ os) ∨ .shutdown s t ∈ os := by
  induction os with
  | nil => exact absurd rfl h
  | cons o os ih =>
    have hgo : answers g t s os ≠ 0 → (∃ n, g.task n = t ∧ .send s n ∈ o :: os) ∨ .shutdown s t ∈ o :: os := by
      intro h1
      rcases ih h1 with ⟨n, h2, h3⟩ | h2
      · exact Or.inl ⟨n, h2, List.mem_cons_of_mem _ h3⟩
      · exact Or.inr (List.mem_cons_of_mem _ h2)
    cases o with
    | send s' n =>
      simp only [answers] at h
      split_ifs at h with hc
      · obtain ⟨h1, rfl⟩ := hc
        exact Or.inl ⟨n, h1, List.mem_cons_self⟩
      · exact hgo (by omega)
    | shutdown s' t' =>
      simp only [answers] at h
      split_ifs at h with hc
      · obtain ⟨rfl, rfl⟩ := hc
        exact Or.inr List.mem_cons_self
      · exact hgo (by omega)
    | _ => exact hgo (by simpa [answers] using h)

/-- A client waits, a block of the task is with a client or just came back, or the task is finished. -/
def Busy (g : DGraph N T K) (t : T) (σ σ' : Server N T K S) : Prop :=
  σ'.pending t ≠ [] ∨ (∃ n, g.task n = t ∧ holder σ'.out n ≠ none) ∨ TaskFinished g (evs σ'.out) t ∨
  ∃ n st os, g.task n = t ∧ σ'.out = σ.out ++ os ∧ .release n st ∈ os

/-- What comes of a request. -/
theorem busy_of_request {ks : List (Server.Tick N T S)} (hg : g.Loose) (hr : SRun g cfg ks σ) (hs : σ.stop = false)
    {k : Server.Tick N T S} (hk : GoodTick g cfg k) (he : σ.iteration g cfg k = .ok σ')
    (hx : OrphanExact g (evs σ'.out)) {t : T} (hq : (∃ s, k.recv = .msg (.acquire t) s) ∨ σ.pending t ≠ []) :
    Busy g t σ σ' := by
  by_cases hp : σ'.pending t = []
  swap
  · exact Or.inl hp
  have hi := hr.inv hg
  obtain ⟨os, ho⟩ := chain_out (iteration_chain hg hi hk he)
  have key : ∃ s, answers g t s os ≠ 0 := by
    have hl : ∀ s, answers g t s os = (σ.pending t).count s + requests t s [k] := by
      intro s
      have := iteration_load hg hi hk he t s
      unfold load at this
      rw [ho, answers_append, hp, List.count_nil] at this
      omega
    rcases hq with ⟨s, hq⟩ | hq
    · refine ⟨s, ?_⟩
      rw [hl]
      simp [requests, hq]
    · obtain ⟨s, r, e⟩ := List.exists_cons_of_ne_nil hq
      refine ⟨s, ?_⟩
      rw [hl, e]
      simp
  obtain ⟨s, key⟩ := key
  rcases answer_mem key with ⟨n, hn, hm⟩ | hm
  · by_cases hh : holder σ'.out n = none
    · obtain ⟨st, h1⟩ := release_of_lost (a := σ.out) (by rw [← ho]; exact hh) (Or.inr ⟨s, hm⟩)
      exact Or.inr (Or.inr (Or.inr ⟨n, st, os, hn, ho, h1⟩))
    · exact Or.inr (Or.inl ⟨n, hn, hh⟩)
  · obtain ⟨a, b, e⟩ := List.append_of_mem hm
    have ho' : σ'.out = (σ.out ++ a) ++ .shutdown s t :: b := by rw [ho, e]; simp
    have hr' : SRun g cfg (ks ++ [k]) σ' := SRun.step k hr hs hk he
    have hpre : OrphanExact g (evs (σ.out ++ a)) := by
      refine exact_prefix (es := evs (.shutdown s t :: b)) ?_
      rw [← evs_append, ← ho']
      exact hx
    have h1 := (C35_loose_shutdown_partial hg hr' ho').2 hpre
    by_cases hall : ∀ n ∈ g.nodes, g.task n = t → holder (σ.out ++ a) n = none
    · refine Or.inr (Or.inr (Or.inl ?_))
      rw [ho', evs_append]
      refine finished_mono (fun n hn ht => ?_)
      rcases h1 n hn ht with h2 | h2 | h2 | h2
      · exact Or.inl h2
      · exact Or.inr (Or.inl h2)
      · exact Or.inr (Or.inr h2)
      · exact absurd (hall n hn ht) h2
    · push Not at hall
      obtain ⟨n, hn, ht, h2⟩ := hall
      by_cases hh : holder σ'.out n = none
      · obtain ⟨st, h3⟩ := release_of_lost (a := σ.out ++ a) (by rw [← ho']; exact hh) (Or.inl h2)
        refine Or.inr (Or.inr (Or.inr ⟨n, st, os, ht, ho, ?_⟩))
        rw [e]
        exact List.mem_append_right _ h3
      · exact Or.inr (Or.inl ⟨n, ht, hh⟩)

/-- A block that is given back, or lost, is no longer with the client. -/
theorem holder_back (hg : g.Loose) (h : SInv g σ) {k : Server.Tick N T S} (hk : GoodTick g cfg k)
    (he : σ.iteration g cfg k = .ok σ') {n : N} {s : S} (hn : holder σ.out n = some s) :
    holder σ'.out n = some s ∧ ¬ GivesBack k n s ∧ k.closed s = false ∨ holder σ'.out n = none := by
  obtain ⟨o, p, os, h1, tk, ho, ef, hh⟩ := iteration_effect hg h hk he
  have hnone : h1 n = none → holder σ'.out n = none := by
    intro e
    rw [hh, e]
    simp
  have hsame : h1 n = some s → ¬ GivesBack k n s →
      holder σ'.out n = some s ∧ ¬ GivesBack k n s ∧ k.closed s = false ∨ holder σ'.out n = none := by
    intro e hb
    cases hc : k.closed s with
    | true => right; rw [hh, if_pos ⟨s, e, hc⟩]
    | false =>
      left
      refine ⟨?_, hb, rfl⟩
      rw [hh, if_neg, e]
      rintro ⟨s', e1, e2⟩
      rw [e] at e1
      cases e1
      rw [hc] at e2
      cases e2
  have hret : ∀ n' s', ReturnEffect n' s' p σ'.pending (holder σ.out) h1 os →
      (GivesBack k n s → n' = n ∧ s' = s) →
      holder σ'.out n = some s ∧ ¬ GivesBack k n s ∧ k.closed s = false ∨ holder σ'.out n = none := by
    rintro n' s' ⟨_, _, e⟩ hb
    by_cases hne : n' = n ∧ s' = s
    · obtain ⟨rfl, rfl⟩ := hne
      refine Or.inr (hnone ?_)
      rw [e]
      simp [hn]
    · refine hsame ?_ (fun hc => hne (hb hc))
      rw [e]
      dsimp only
      rw [if_neg, hn]
      rintro ⟨rfl, e'⟩
      rw [hn] at e'
      cases e'
      exact hne ⟨rfl, rfl⟩
  rcases o with _ | ⟨m, s'⟩
  · refine hsame (by rw [ef.2.2, hn]) ?_
    rintro (⟨st, hb⟩ | ⟨w, hb⟩)
    · rw [hb] at tk; cases tk
    · rw [hb] at tk; cases tk
  · cases m with
    | acquire t =>
      refine hsame ?_ ?_
      · rcases ef with ⟨n', _, _, _, _, e1, e2⟩ | ⟨_, _, e2⟩ | ⟨_, _, e2⟩
        · rw [e2]
          dsimp only
          rw [if_neg, hn]
          rintro rfl
          rw [hn] at e1; cases e1
        · rw [e2, hn]
        · rw [e2, hn]
      · rintro (⟨st, hb⟩ | ⟨w, hb⟩) <;> rcases takes_some tk with hr | hr <;> rw [hb] at hr <;> cases hr
    | release n' st =>
      refine hret n' s' ef ?_
      rintro (⟨st, hb⟩ | ⟨w, hb⟩) <;> rcases takes_some tk with hr | hr <;> rw [hb] at hr <;> cases hr
      exact ⟨rfl, rfl⟩
    | blockFailed n' w =>
      refine hret n' s' ef ?_
      rintro (⟨st, hb⟩ | ⟨w, hb⟩) <;> rcases takes_some tk with hr | hr <;> rw [hb] at hr <;> cases hr
      exact ⟨rfl, rfl⟩
    | clientException => exact absurd ef id
    | other => exact absurd ef id

section
variable {σs : Nat → Server N T K S} {kf : Nat → Server.Tick N T S}

theorem Spec.Forever.stop_mono (h : Forever g cfg σs kf) {i j : Nat} (hij : i ≤ j) (hs : (σs i).stop = true) :
    (σs j).stop = true := by
  obtain ⟨d, rfl⟩ := Nat.exists_eq_add_of_le hij
  clear hij
  induction d with
  | zero => exact hs
  | succ d ih => rw [← Nat.add_assoc, h.stopped _ ih]; exact ih

theorem Spec.Forever.finished_mono (hg : g.Loose) (h : Forever g cfg σs kf) {i j : Nat} (hij : i ≤ j) {t : T}
    (hs : TaskFinished g (evs (σs i).out) t) : TaskFinished g (evs (σs j).out) t := by
  obtain ⟨d, rfl⟩ := Nat.exists_eq_add_of_le hij
  obtain ⟨es, e, _⟩ := h.evs_add hg i d
  rw [e]
  exact Verif.finished_mono hs

/-- A block that a client has is taken back some day. -/
theorem Spec.Forever.taken (hg : g.Loose) (h : Forever g cfg σs kf)
    (hret : ∀ i n s, holder (σs i).out n = some s →
      ∃ j, i ≤ j ∧ ((σs j).stop = true ∨ GivesBack (kf j) n s ∨ (kf j).closed s = true))
    {i : Nat} {n : N} (hn : holder (σs i).out n ≠ none) :
    ∃ j, i ≤ j ∧ ((σs j).stop = true ∨ TakenBack σs j n) := by
  obtain ⟨s, hs⟩ := Option.ne_none_iff_exists'.1 hn
  obtain ⟨j, hj, hc⟩ := hret i n s hs
  have key : ∀ j, holder (σs j).out n = some s → ((σs j).stop = true ∨ TakenBack σs j n) ∨
      holder (σs (j + 1)).out n = some s ∧ ¬ GivesBack (kf j) n s ∧ (kf j).closed s = false := by
    intro j hh
    cases hst : (σs j).stop with
    | true => exact Or.inl (Or.inl rfl)
    | false =>
      obtain ⟨ks, hr⟩ := h.run j
      obtain ⟨os, ho⟩ := h.out hg j
      rcases holder_back hg (hr.inv hg) (h.good j) (h.step j hst) hh with h1 | h1
      · exact Or.inr h1
      · obtain ⟨st, h2⟩ := release_of_lost (a := (σs j).out) (by rw [← ho]; exact h1) (Or.inl (by rw [hh]; simp))
        exact Or.inl (Or.inr ⟨os, st, ho, h2⟩)
  have hind : ∀ d, (∃ j, i ≤ j ∧ ((σs j).stop = true ∨ TakenBack σs j n)) ∨ holder (σs (i + d)).out n = some s := by
    intro d
    induction d with
    | zero => exact Or.inr hs
    | succ d ih =>
      rcases ih with ih | ih
      · exact Or.inl ih
      · rcases key _ ih with h1 | h1
        · exact Or.inl ⟨_, Nat.le_add_right _ _, h1⟩
        · exact Or.inr h1.1
  obtain ⟨d, rfl⟩ := Nat.exists_eq_add_of_le hj
  rcases hind d with h1 | h1
  · exact h1
  · rcases key _ h1 with h2 | ⟨_, h2, h3⟩
    · exact ⟨_, hj, h2⟩
    · rcases hc with hc | hc | hc
      · exact ⟨_, hj, Or.inl hc⟩
      · exact absurd hc h2
      · rw [h3] at hc; cases hc

/-- After a first request, a task always has a request, waiting or still to come, until it is finished. -/
theorem Spec.Forever.asks_on (hg : g.Loose) (h : Forever g cfg σs kf)
    (hret : ∀ i n s, holder (σs i).out n = some s →
      ∃ j, i ≤ j ∧ ((σs j).stop = true ∨ GivesBack (kf j) n s ∨ (kf j).closed s = true))
    (ha : AsksAgain g σs kf) (hx : ∀ i, OrphanExact g (evs (σs i).out)) {t : T} {j0 : Nat} {s0 : S}
    (h0 : (kf j0).recv = .msg (.acquire t) s0) (i : Nat) :
    ∃ j, i ≤ j ∧ ((σs j).stop = true ∨ TaskFinished g (evs (σs j).out) t ∨
      (∃ s, (kf j).recv = .msg (.acquire t) s) ∨ (σs j).pending t ≠ []) := by
  by_cases hi : i ≤ j0
  · exact ⟨j0, hi, Or.inr (Or.inr (Or.inl ⟨s0, h0⟩))⟩
  -- the last request before `i`
  obtain ⟨j, s, hj, hjs, hlast⟩ : ∃ j s, j < i ∧ (kf j).recv = .msg (.acquire t) s ∧
      ∀ j' s', j < j' → j' < i → (kf j').recv ≠ .msg (.acquire t) s' := by
    have : ∀ d, d ≤ i → j0 < d → ∃ j s, j < d ∧ (kf j).recv = .msg (.acquire t) s ∧
        ∀ j' s', j < j' → j' < d → (kf j').recv ≠ .msg (.acquire t) s' := by
      intro d
      induction d with
      | zero => intro _ h1; omega
      | succ d ih =>
        intro hd hlt
        by_cases hq : ∃ s, (kf d).recv = .msg (.acquire t) s
        · obtain ⟨s, hq⟩ := hq
          exact ⟨d, s, by omega, hq, fun j' s' h1 h2 => by omega⟩
        · push Not at hq
          have hne : j0 ≠ d := by rintro rfl; exact hq s0 h0
          obtain ⟨j, s, h1, h2, h3⟩ := ih (by omega) (by omega)
          refine ⟨j, s, by omega, h2, fun j' s' h4 h5 => ?_⟩
          by_cases he : j' = d
          · subst he; exact hq s'
          · exact h3 j' s' h4 (by omega)
    exact this i le_rfl (by omega)
  have hb : ∀ d, j + 1 + d ≤ i → (∃ l, l < i ∧ (σs l).stop = true) ∨ (σs (j + 1 + d)).pending t ≠ [] ∨
      (∃ n, g.task n = t ∧ holder (σs (j + 1 + d)).out n ≠ none) ∨ TaskFinished g (evs (σs (j + 1 + d)).out) t ∨
      ∃ l n, j ≤ l ∧ g.task n = t ∧ TakenBack σs l n := by
    have hstep : ∀ l, j ≤ l → l < i → ((∃ s, (kf l).recv = .msg (.acquire t) s) ∨ (σs l).pending t ≠ []) →
        (∃ l, l < i ∧ (σs l).stop = true) ∨ (σs (l + 1)).pending t ≠ [] ∨
      (∃ n, g.task n = t ∧ holder (σs (l + 1)).out n ≠ none) ∨ TaskFinished g (evs (σs (l + 1)).out) t ∨
      ∃ l n, j ≤ l ∧ g.task n = t ∧ TakenBack σs l n := by
      intro l hl hli hq
      cases hst : (σs l).stop with
      | true => exact Or.inl ⟨l, hli, hst⟩
      | false =>
        obtain ⟨ks, hr⟩ := h.run l
        rcases busy_of_request hg hr hst (h.good l) (h.step l hst) (hx (l + 1)) hq with h1 | h1 | h1 | h1
        · exact Or.inr (Or.inl h1)
        · exact Or.inr (Or.inr (Or.inl h1))
        · exact Or.inr (Or.inr (Or.inr (Or.inl h1)))
        · obtain ⟨n, st, os, h2, h3, h4⟩ := h1
          exact Or.inr (Or.inr (Or.inr (Or.inr ⟨l, n, hl, h2, os, st, h3, h4⟩)))
    intro d
    induction d with
    | zero => intro hd; exact hstep j le_rfl hj (Or.inl ⟨s, hjs⟩)
    | succ d ih =>
      intro hd
      rcases ih (by omega) with h1 | h1 | ⟨n, h1, h2⟩ | h1 | h1
      · exact Or.inl h1
      · exact hstep (j + 1 + d) (by omega) (by omega) (Or.inr h1)
      · by_cases hn : holder (σs (j + 1 + (d + 1))).out n = none
        · obtain ⟨os, ho⟩ := h.out hg (j + 1 + d)
          obtain ⟨st, h3⟩ := release_of_lost (a := (σs (j + 1 + d)).out) (by rw [← ho]; exact hn) (Or.inl h2)
          exact Or.inr (Or.inr (Or.inr (Or.inr ⟨_, n, by omega, h1, os, st, ho, h3⟩)))
        · exact Or.inr (Or.inr (Or.inl ⟨n, h1, hn⟩))
      · exact Or.inr (Or.inr (Or.inr (Or.inl (h.finished_mono hg (by omega) h1))))
      · exact Or.inr (Or.inr (Or.inr (Or.inr h1)))
  have hback : ∀ l n, j ≤ l → g.task n = t → TakenBack σs l n → ∃ j', i ≤ j' ∧ ((σs j').stop = true ∨
      TaskFinished g (evs (σs j').out) t ∨ (∃ s, (kf j').recv = .msg (.acquire t) s) ∨ (σs j').pending t ≠ []) := by
    intro l n hl hn hb
    obtain ⟨j', h1, h2⟩ := ha l n hb
    rw [hn] at h2
    rcases h2 with h2 | h2 | ⟨s', h2⟩
    · exact ⟨max i j', le_max_left _ _, Or.inl (h.stop_mono (le_max_right _ _) h2)⟩
    · exact ⟨max i j', le_max_left _ _, Or.inr (Or.inl (h.finished_mono hg (le_max_right _ _) h2))⟩
    · refine ⟨j', ?_, Or.inr (Or.inr (Or.inl ⟨s', h2⟩))⟩
      by_contra hc
      exact hlast j' s' (by omega) (by omega) h2
  obtain ⟨d, hd⟩ := Nat.exists_eq_add_of_le (show j + 1 ≤ i by omega)
  have := hb d (by omega)
  rw [← hd] at this
  rcases this with ⟨l, h1, h2⟩ | h1 | ⟨n, h1, h2⟩ | h1 | ⟨l, n, h1, h2, h3⟩
  · exact ⟨i, le_rfl, Or.inl (h.stop_mono (by omega) h2)⟩
  · exact ⟨i, le_rfl, Or.inr (Or.inr (Or.inr h1))⟩
  · obtain ⟨l, h3, h4⟩ := h.taken hg hret h2
    rcases h4 with h4 | h4
    · exact ⟨l, h3, Or.inl h4⟩
    · exact hback l n (by omega) h1 h4
  · exact ⟨i, le_rfl, Or.inr (Or.inl h1)⟩
  · exact hback l n h1 h2 h3

end

end Verif
