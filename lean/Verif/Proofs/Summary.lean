import Verif.Proofs.SystemMonitor
import Verif.Proofs.Serial

/-! # Which tasks the monitor has a summary of -/

set_option linter.unusedSectionVars false

namespace Verif

open Spec

variable {N T K S : Type} [DecidableEq N] [DecidableEq T] [DecidableEq K] [DecidableEq S]
  {g : DGraph N T K} {cfg : SConf T} {σ σ' : Server N T K S}

/-- After a server has stopped, all tasks are on its list of finished tasks. -/
theorem SRun.stop_finished (hg : g.Loose) {ks : List (Server.Tick N T S)} (h : SRun g cfg ks σ) :
    σ.stop = true → ∀ t ∈ g.tasks, t ∈ σ.finished := by
  have hrec : ∀ σ : Server N T K S, (σ.stop = true → ∀ t ∈ g.tasks, t ∈ σ.finished) →
      ((σ.recruit g).stop = true → ∀ t ∈ g.tasks, t ∈ (σ.recruit g).finished) := by
    intro σ h
    obtain ⟨a1, _, a3, _⟩ := recruit_spec (g := g) σ
    rw [a1, a3]
    exact h
  have hchk : ∀ σ : Server N T K S, (σ.stop = true → ∀ t ∈ g.tasks, t ∈ σ.finished) →
      ((σ.checkAll g).stop = true → ∀ t ∈ g.tasks, t ∈ (σ.checkAll g).finished) := by
    intro σ h hs t ht
    obtain ⟨_, a2, a3, _⟩ := checkAll_spec (g := g) σ
    rcases a2.1 hs with h1 | h1
    · exact (a3 t).2 (Or.inl (h h1 t ht))
    · exact (a3 t).2 (Or.inr ⟨ht, h1 t ht⟩)
  refine h.induct hg (P := fun σ => σ.stop = true → ∀ t ∈ g.tasks, t ∈ σ.finished) ?_ ?_
  · exact hrec _ (fun h => by cases h)
  · intro a b _ _ hm ih
    cases hm with
    | send => exact ih
    | shut => exact hrec _ ih
    | delay => exact ih
    | rel => exact hrec _ (hchk _ ih)
    | check => exact hchk _ ih
    | fail => exact ih
    | book => exact ih
    | pop => exact ih

namespace Monitor

variable {B : Type}

/-- A notification that makes a summary of a task. -/
def Makes (u : String) : MonEv B → Prop
  | .start t _ => t = u
  | .done t _ => t = u
  | _ => False

theorem step_sums {m m' : Monitor B} {e : MonEv B} (h : m.step e = .ok m') (u : String) :
    m'.sums u ≠ none ↔ m.sums u ≠ none ∨ Makes u e := by
  cases e with
  | acquire t s => cases h; exact (or_false _).to_iff.symm
  | release t s => cases h; exact (or_false _).to_iff.symm
  | failure t b w =>
    simp only [step, onBlockFailure] at h
    split at h
    · cases h
    · next x hx =>
      cases h
      simp only [upd]
      split_ifs with hc
      · subst hc
        rw [hx]
        simp
      · simp [Makes]
  | start t s =>
    cases h
    simp only [upd, Makes]
    split_ifs with hc
    · simp [hc]
    · rw [or_iff_left (fun h => hc h.symm)]
  | done t s =>
    simp only [step, Except.ok.injEq] at h
    subst h
    have : (m.onTaskDone t s).sums u ≠ none ↔ m.sums u ≠ none ∨ t = u := by
      unfold onTaskDone
      cases hb : m.bars t <;> cases hs : m.sums t <;> simp only [upd] <;> split_ifs with hc
      all_goals first
        | (simp [hc]; done)
        | (rw [or_iff_left (fun h => hc h.symm)])
    exact this

/-- There is a summary of exactly the tasks that were announced as started or as done. -/
theorem run_sums (es : List (MonEv B)) : ∀ {m m' : Monitor B}, m.run es = .ok m' → ∀ u,
    (m'.sums u ≠ none ↔ m.sums u ≠ none ∨ ∃ e ∈ es, Makes u e) := by
  induction es with
  | nil =>
    intro m m' h u
    cases h
    simp
  | cons e es ih =>
    intro m m' h u
    unfold run at h
    split at h
    · cases h
    · next m1 h1 =>
      rw [ih h u, step_sums h1 u]
      simp only [List.mem_cons, exists_eq_or_imp, or_assoc]

end Monitor

/-- The actions of the server that make a summary. -/
theorem monEvs_makes (name : T → String) (hname : Function.Injective name) (st : Nat → TState)
    (out : List (Out N T S)) (t : T) :
    (∃ e ∈ monEvs g name st out, Monitor.Makes (name t) e) ↔ .taskStart t ∈ out ∨ .taskDone t ∈ out := by
  unfold monEvs
  constructor
  · rintro ⟨e, he, hm⟩
    obtain ⟨⟨o, i⟩, ho, hoe⟩ := List.mem_filterMap.1 he
    have ho := List.fst_mem_of_mem_zipIdx ho
    dsimp only at hoe ho
    cases o with
    | taskStart t' => cases hoe; exact Or.inl (hname hm ▸ ho)
    | taskDone t' => cases hoe; exact Or.inr (hname hm ▸ ho)
    | acquired t' => cases hoe; exact hm.elim
    | released t' => cases hoe; exact hm.elim
    | blockFailure n w => cases hoe; exact hm.elim
    | _ => cases hoe
  · have key : ∀ o ∈ out, ∃ i, (o, i) ∈ out.zipIdx := by
      intro o ho
      obtain ⟨i, hi, rfl⟩ := List.getElem_of_mem ho
      exact ⟨i, List.mk_mem_zipIdx_iff_getElem?.2 (List.getElem?_eq_getElem hi)⟩
    rintro (h | h)
    · obtain ⟨i, hi⟩ := key _ h
      exact ⟨.start (name t) (st i), List.mem_filterMap.2 ⟨_, hi, rfl⟩, rfl⟩
    · obtain ⟨i, hi⟩ := key _ h
      exact ⟨.done (name t) (st i), List.mem_filterMap.2 ⟨_, hi, rfl⟩, rfl⟩

/-! ### The serial server -/

/-- The actions of the serial server that make a summary. -/
theorem serMonEvs_makes (name : T → String) (hname : Function.Injective name) (st : Nat → TState)
    (out : List (SerOut N T)) (t : T) :
    (∃ e ∈ serMonEvs name st out, Monitor.Makes (name t) e) ↔ .taskStart t ∈ out ∨ .taskDone t ∈ out := by
  unfold serMonEvs
  constructor
  · rintro ⟨e, he, hm⟩
    obtain ⟨⟨o, i⟩, ho, hoe⟩ := List.mem_filterMap.1 he
    have ho := List.fst_mem_of_mem_zipIdx ho
    dsimp only at hoe ho
    cases o with
    | taskStart t' => cases hoe; exact Or.inl (hname hm ▸ ho)
    | taskDone t' => cases hoe; exact Or.inr (hname hm ▸ ho)
    | acquired t' => cases hoe; exact hm.elim
    | released t' => cases hoe; exact hm.elim
    | _ => cases hoe
  · have key : ∀ o ∈ out, ∃ i, (o, i) ∈ out.zipIdx := by
      intro o ho
      obtain ⟨i, hi, rfl⟩ := List.getElem_of_mem ho
      exact ⟨i, List.mk_mem_zipIdx_iff_getElem?.2 (List.getElem?_eq_getElem hi)⟩
    rintro (h | h)
    · obtain ⟨i, hi⟩ := key _ h
      exact ⟨.start (name t) (st i), List.mem_filterMap.2 ⟨_, hi, rfl⟩, rfl⟩
    · obtain ⟨i, hi⟩ := key _ h
      exact ⟨.done (name t) (st i), List.mem_filterMap.2 ⟨_, hi, rfl⟩, rfl⟩

/-- Notifications without failures never make the monitor raise, and the summaries contain no failures. -/
theorem Monitor.run_quiet {B : Type} (es : List (MonEv B)) : ∀ {m : Monitor B},
    (∀ t b w, .failure t b w ∉ es) → (∀ u x, m.sums u = some x → x.failures = []) →
    ∃ m', m.run es = .ok m' ∧ ∀ u x, m'.sums u = some x → x.failures = [] := by
  induction es with
  | nil => intro m _ h; exact ⟨m, rfl, h⟩
  | cons e es ih =>
    intro m hn h
    have key : ∃ m1, m.step e = .ok m1 ∧ ∀ u x, m1.sums u = some x → x.failures = [] := by
      cases e with
      | acquire t s => exact ⟨_, rfl, h⟩
      | release t s => exact ⟨_, rfl, h⟩
      | failure t b w => exact absurd List.mem_cons_self (hn t b w)
      | start t s =>
        refine ⟨_, rfl, ?_⟩
        intro u x hx
        simp only [upd] at hx
        split_ifs at hx
        · cases hx; rfl
        · exact h u x hx
      | done t s =>
        refine ⟨_, rfl, ?_⟩
        intro u x hx
        unfold Monitor.onTaskDone at hx
        cases hb : m.bars t <;> cases hs : m.sums t <;> simp only [hb, hs, upd] at hx <;> split_ifs at hx
        all_goals first
          | exact h u x hx
          | (cases hx; rfl)
          | (cases hx; have h0 := h t _ hs; exact h0)
    obtain ⟨m1, h1, h2⟩ := key
    obtain ⟨m2, h3, h4⟩ := ih (m := m1) (fun t b w hm => hn t b w (List.mem_cons_of_mem _ hm)) h2
    refine ⟨m2, ?_, h4⟩
    unfold Monitor.run
    rw [h1]
    exact h3

theorem serMonEvs_quiet (name : T → String) (st : Nat → TState) (out : List (SerOut N T)) (t : String) (n : N)
    (w : Nat) : .failure t n w ∉ serMonEvs name st out := by
  intro h
  obtain ⟨⟨o, i⟩, _, ho⟩ := List.mem_filterMap.1 h
  cases o <;> cases ho

variable {served : List T} {ks : List (SerTick N T)} {ρ : Serial N T K}

/-- The serial server announces exactly the tasks of which it processes a block, and as done only such tasks. -/
theorem SerRun.announced (hg : g.Loose) (h : SerRun g served ks ρ) :
    (∀ t ∈ ρ.started, .taskStart t ∈ ρ.out) ∧
    (∀ t, .taskStart t ∈ ρ.out ↔ ∃ n, .call n ∈ ρ.out ∧ g.task n = t) ∧
    ∀ t, .taskDone t ∈ ρ.out → .taskStart t ∈ ρ.out := by
  induction h with
  | init => simp [Serial.init]
  | @pass ks σ σ' k hr he hpick hp ih =>
    obtain ⟨i1, i2, i3⟩ := ih
    rcases pass_cases hg (hr.inv hg) he hpick with ⟨σ1, sk, h1, h2⟩ | ⟨sk, n, st, _, _, h1 | h1 | ⟨σ1, h1, h2⟩⟩
    · rw [h1] at hp
      cases hp
      rw [h2.out, h2.same.1]
      refine ⟨?_, ?_, ?_⟩ <;> intro t <;> simp
      · exact i1 t
      · exact i2 t
      · exact i3 t
    · rw [h1.2] at hp; cases hp
    · rw [h1.2.2] at hp; cases hp
    · rw [h1] at hp
      cases hp
      obtain ⟨s, d, e, ho, hs, hd, hx⟩ := h2.out
      have hs' : ∀ o, o ∈ s ↔ g.task n ∉ σ.started ∧ o = .taskStart (g.task n) := by
        intro o; rw [hs]; split_ifs <;> simp_all
      have hd' : ∀ o, o ∈ d → o = .taskDone (g.task n) := by
        intro o; rw [hd]; split_ifs <;> simp
      have hx' : ∀ o, o ∈ e → o = .exit := by
        intro o; rw [hx]; split_ifs <;> simp
      have hst : .taskStart (g.task n) ∈ σ'.out := by
        rw [ho]
        by_cases hc : g.task n ∈ σ.started
        · simp [i1 _ hc]
        · simp [(hs' _).2 ⟨hc, rfl⟩]
      have hts : ∀ t, .taskStart t ∈ σ'.out ↔ .taskStart t ∈ σ.out ∨ t = g.task n := by
        intro t
        constructor
        · intro hm
          rw [ho] at hm
          simp only [List.mem_append, List.mem_map, List.mem_cons, reduceCtorEq, and_false, exists_false, or_false,
            List.not_mem_nil] at hm
          rcases hm with ((hm | hm) | hm) | hm
          · exact Or.inl hm
          · have := ((hs' _).1 hm).2
            cases this
            exact Or.inr rfl
          · cases hd' _ hm
          · cases hx' _ hm
        · rintro (hm | rfl)
          · rw [ho]; simp [hm]
          · exact hst
      have hcall : ∀ m, .call m ∈ σ'.out ↔ .call m ∈ σ.out ∨ m = n := by
        intro m
        rw [ho]
        simp only [List.mem_append, List.mem_map, List.mem_cons, reduceCtorEq, and_false, exists_false, or_false,
          List.not_mem_nil, SerOut.call.injEq, false_or]
        constructor
        · rintro ((((hm | hm) | hm) | hm) | hm)
          · exact Or.inl hm
          · cases ((hs' _).1 hm).2
          · exact Or.inr hm
          · cases hd' _ hm
          · cases hx' _ hm
        · tauto
      have hdone : ∀ t, .taskDone t ∈ σ'.out → .taskDone t ∈ σ.out ∨ t = g.task n := by
        intro t hm
        rw [ho] at hm
        simp only [List.mem_append, List.mem_map, List.mem_cons, reduceCtorEq, and_false, exists_false, or_false,
          List.not_mem_nil] at hm
        rcases hm with ((hm | hm) | hm) | hm
        · exact Or.inl hm
        · cases ((hs' _).1 hm).2
        · have := hd' _ hm
          cases this
          exact Or.inr rfl
        · cases hx' _ hm
      refine ⟨?_, ?_, ?_⟩
      · intro t ht
        rw [h2.started] at ht
        have : t ∈ σ.started ∨ t = g.task n := by
          split_ifs at ht <;> (try simp at ht) <;> tauto
        exact (hts t).2 (this.imp (i1 t) id)
      · intro t
        rw [hts t, i2 t]
        constructor
        · rintro (⟨m, h3, h4⟩ | rfl)
          · exact ⟨m, (hcall m).2 (Or.inl h3), h4⟩
          · exact ⟨n, (hcall n).2 (Or.inr rfl), rfl⟩
        · rintro ⟨m, h3, rfl⟩
          rcases (hcall m).1 h3 with h3 | rfl
          · exact Or.inl ⟨m, h3, rfl⟩
          · exact Or.inr rfl
      · intro t ht
        exact (hts t).2 ((hdone t ht).imp (i3 t) id)

end Verif
