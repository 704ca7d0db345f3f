import Verif.Proofs.Marks

/-! # Data and marks of the serial server -/

namespace Verif

open Spec

variable {N T K L V : Type} [DecidableEq N] [DecidableEq T] [DecidableEq K] [DecidableEq L] {g : DGraph N T K}
  {served : List T} {R W : N → L → Prop} {P : N → Prog L V} {D₀ D₁ D D' : L → V} {order : List N}
  {ks : List (SerTick N T)} {σ σ' : Serial N T K} {k : SerTick N T} {M₁ M M' H : N → Prop}

theorem SerMarkRun.run (h : SerMarkRun g served P D₁ M₁ ks σ D M) : SerRun g served ks σ := by
  induction h with
  | init => exact .init
  | pass _ h1 h2 h3 _ _ ih => exact .pass ih h1 h2 h3

/-- Steps of a program that keeps to its locations. -/
theorem Prog.Steps.uses {R W : L → Prop} {q q' : Prog L V} (h : q.Steps D q' D') : q.Uses R W →
    q'.Uses R W ∧ (∀ l, ¬ W l → D' l = D l) ∧ q'.run D' = q.run D := by
  induction h with
  | refl => exact fun h => ⟨h, fun _ _ => rfl, rfl⟩
  | step h1 _ ih =>
    intro h
    obtain ⟨s1, s2, s3⟩ := Prog.uses_step h h1
    obtain ⟨i1, i2, i3⟩ := ih s1
    refine ⟨i1, fun l hl => ?_, i3.trans s3⟩
    rw [i2 l hl]
    by_contra h'
    exact hl (s2 l h')

/-- What is known about data and marks. -/
structure SerMarkInv (g : DGraph N T K) (W : N → L → Prop) (D₀ F : L → V) (H : N → Prop) (σ : Serial N T K) (D : L → V)
    (M : N → Prop) : Prop where
  ground : Ground g W D₀ F (fun n => .hand n ∈ serEvs σ.out ∨ H n) D M
  done : ∀ n, Done (serEvs σ.out) n → M n

section
variable (hg : g.Loose) (hd : Disciplined g R W P) (ho : Topological g order)
  (hR : ∀ n ∈ g.nodes, Restartable (W n) (P n))

include hg in
/-- Which blocks a pass skips, and which one it processes. -/
theorem acquireAny_marks {tr : List (Ev N)} {st st' : Sched N T K} {ts : List T} {skips : List N} {r : Option N}
    {chk : T → Nat → N → Check} (hr : Run g tr st) (hc : ∀ t i n, chk t i n = .accept ↔ M n)
    (ha : Serial.acquireAny g chk ts st = .ok (skips, r, st')) :
    (∀ n ∈ skips, M n) ∧ ∀ n, r = some n → Ready g (tr ++ skips.map .skip) n ∧ ¬ M n := by
  obtain ⟨sk, r', st1, f1, _, f3, f4, _⟩ := acquireAny_spec hg chk ts hr
  rw [ha] at f1
  cases f1
  refine ⟨fun n hn => ?_, fun n hn => ?_⟩
  · obtain ⟨_, i, hi⟩ := f3 n hn
    exact (hc _ i n).1 hi
  · obtain ⟨h1, _, i, hi⟩ := f4 n hn
    exact ⟨h1, fun hm => hi ((hc _ i n).2 hm)⟩

omit [DecidableEq N] [DecidableEq T] [DecidableEq K] in
include hg hd ho hR in
/-- A call of the process function. -/
theorem Ground.call (hi : Ground g W D₀ (oneByOne P order D₀) H D M) {n : N} (hn : n ∈ g.nodes)
    (hr : ∀ u ∈ g.up n, M u) (hm : ¬ M n) (hc : CallMarks (P n) n D M D' M') :
    Ground g W D₀ (oneByOne P order D₀) (fun m => m = n ∨ H m) D' M' ∧ ∀ m, M m → M' m := by
  obtain ⟨q, hq, hM⟩ := hc
  obtain ⟨q1, q2, q3⟩ := hq.uses (hd.uses n hn)
  have hf := hi.start hg hd ho hR hn hr hm
  have h1 := ((hi.hand (A := fun m => m = n) (fun m e => e ▸ ⟨hn, hr⟩)).store hd (n := n) (Or.inl rfl) hm q2)
  rcases hM with rfl | ⟨rfl, rfl⟩
  · exact ⟨h1, fun _ h => h⟩
  · refine ⟨h1.mark (Or.inl rfl) (fun l hl => ?_), fun _ h => Or.inr h⟩
    have : D' = (P n).run D := q3
    rw [this]
    exact hf l hl

include hg hd ho hR in
theorem SerMarkRun.inv (hstart : Ground g W D₀ (oneByOne P order D₀) H D₁ M₁)
    (h : SerMarkRun g served P D₁ M₁ ks σ D M) : SerMarkInv g W D₀ (oneByOne P order D₀) H σ D M := by
  induction h with
  | init =>
    refine ⟨hstart.congr (fun n => ?_), fun n hn => ?_⟩
    · simp [Serial.init, serEvs]
    · rcases hn with h | h <;> simp [Serial.init, serEvs] at h
  | @pass ks σ σ' k D D' M M' hr he hpick hpass hchk hdid ih =>
    have hi := hr.run.inv hg
    rcases pass_cases hg hi he hpick with ⟨σ1, skips, e1, hl⟩ | ⟨skips, n, st, _, _, ⟨_, e1⟩ | ⟨_, _, e1⟩ | ⟨σ1, e1, hd'⟩⟩
    · rw [hpass] at e1
      cases e1
      have hdrop : σ'.out.drop σ.out.length = skips.map .skip ++ [.exit] := by
        rw [hl.out, List.append_assoc, List.drop_left]
      rw [hdrop] at hdid
      have hD : D' = D ∧ M' = M := by
        rcases hdid with ⟨n, hn, _⟩ | ⟨_, h⟩
        · simp at hn
        · exact h
      obtain ⟨rfl, rfl⟩ := hD
      have hsk : ∀ n ∈ skips, M' n := by
        rcases hl.why with ⟨_, h1, _⟩ | h1
        · rw [h1]; simp
        · exact (acquireAny_marks hg hi.run hchk h1).1
      refine ⟨ih.ground.congr (fun n => ?_), fun n hn => ?_⟩
      · rw [hl.evs]
        simp
      · rw [hl.evs, done_skips] at hn
        exact hn.elim (ih.done n) (hsk n)
    · rw [hpass] at e1; cases e1
    · rw [hpass] at e1; cases e1
    · rw [hpass] at e1
      cases e1
      obtain ⟨s, d, e, o1, o2, o3, o4⟩ := hd'.out
      have hdrop : σ'.out.drop σ.out.length = skips.map .skip ++ (s ++
          ([.acquired (g.task n), .call n, .release n (σ.statusAfter n (k.proc n)), .released (g.task n)] ++ (d ++ e))) := by
        rw [o1]
        simp only [List.append_assoc, List.drop_left]
      rw [hdrop] at hdid
      obtain ⟨st1, a1, a2⟩ := hd'.acquired
      obtain ⟨hsk, hn⟩ := acquireAny_marks hg hi.run hchk a1
      obtain ⟨hready, hnm⟩ := hn n rfl
      have hcall : CallMarks (P n) n D M D' M' ∧ (k.proc n ≠ .set .failed → M' n) := by
        rcases hdid with ⟨m, hm, h⟩ | ⟨h, _⟩
        · have : m = n := by
            rw [o2, o3, o4] at hm
            simp only [List.mem_append, List.mem_map] at hm
            rcases hm with ⟨_, _, h⟩ | hm | hm | hm | hm
            · cases h
            · split at hm <;> simp at hm
            · simpa using hm
            · split at hm <;> simp at hm
            · split at hm <;> simp at hm
          exact this ▸ h
        · exact absurd (by simp) (h n)
      have hup : ∀ u ∈ g.up n, M u := fun u hu =>
        ((done_skips _ _ _).1 (hready.2.1 u hu)).elim (ih.done u) (hsk u)
      obtain ⟨c1, c2⟩ := ih.ground.call hg hd ho hR hready.1 hup hnm hcall.1
      rcases statusAfter_cases σ n (k.proc n) with hst | hst
      · refine ⟨c1.congr (fun m => ?_), fun m hm => ?_⟩
        · rw [hd'.evs, acquireEvents_some, hst]
          simp [relEv]
          tauto
        · rw [hd'.evs, acquireEvents_some, hst] at hm
          refine c2 m ?_
          unfold Done at hm
          simp [relEv] at hm
          rcases hm with h | h | h
          · exact ih.done m (Or.inl h)
          · exact ih.done m (Or.inr h)
          · exact hsk m h
      · refine ⟨c1.congr (fun m => ?_), fun m hm => ?_⟩
        · rw [hd'.evs, acquireEvents_some, hst]
          simp [relEv]
          tauto
        · have hnf : k.proc n ≠ .set .failed := by
            intro h
            rw [h] at hst
            cases hst
          rw [hd'.evs, acquireEvents_some, hst] at hm
          by_cases e : m = n
          · exact e ▸ hcall.2 hnf
          refine c2 m ?_
          unfold Done at hm
          simp [relEv] at hm
          rcases hm with (h | h) | h | h
          · exact ih.done m (Or.inl h)
          · exact absurd h e
          · exact ih.done m (Or.inr h)
          · exact hsk m h

include hg hd ho hR in
theorem SerMarkRun.raised (hstart : Ground g W D₀ (oneByOne P order D₀) H D₁ M₁)
    (h : SerMarkRun g served P D₁ M₁ ks σ D M) (hr : SerMarkRaises g served P σ k D M D' M') :
    ∃ H', Ground g W D₀ (oneByOne P order D₀) H' D' M' := by
  obtain ⟨he, hpick, _, hchk, n, σ', hpass, hcall, hm⟩ := hr
  have ih := h.inv hg hd ho hR hstart
  have hi := h.run.inv hg
  have hpick' : LegalPick ({ k with proc := fun _ => .keep } : SerTick N T).pick := hpick
  rcases pass_cases hg hi he hpick' with ⟨σ1, skips, e1, hl⟩ | ⟨skips, m, st, _, hready, ⟨_, e1⟩ | ⟨_, _, e1⟩ | ⟨σ1, e1, hd'⟩⟩
  · rw [hpass] at e1
    cases e1
    have hdrop : σ'.out.drop σ.out.length = skips.map .skip ++ [.exit] := by
      rw [hl.out, List.append_assoc, List.drop_left]
    rw [hdrop] at hcall
    simp at hcall
  · rw [hpass] at e1; cases e1
  · rw [hpass] at e1; cases e1
  · rw [hpass] at e1
    cases e1
    obtain ⟨s, d, e, o1, o2, o3, o4⟩ := hd'.out
    have hdrop : σ'.out.drop σ.out.length = skips.map .skip ++ (s ++
        ([.acquired (g.task m), .call m, .release m (σ.statusAfter m .keep), .released (g.task m)] ++ (d ++ e))) := by
      rw [o1]
      simp only [List.append_assoc, List.drop_left]
    rw [hdrop] at hcall
    obtain ⟨st1, a1, a2⟩ := hd'.acquired
    obtain ⟨hsk, hn⟩ := acquireAny_marks hg hi.run hchk a1
    obtain ⟨hready, hnm⟩ := hn m rfl
    have e1 : n = m := by
      rw [o2, o3, o4] at hcall
      simp only [List.mem_append, List.mem_map] at hcall
      rcases hcall with ⟨_, _, h⟩ | hm | hm | hm | hm
      · cases h
      · split at hm <;> simp at hm
      · simpa using hm
      · split at hm <;> simp at hm
      · split at hm <;> simp at hm
    subst e1
    have hup : ∀ u ∈ g.up n, M u := fun u hu =>
      ((done_skips _ _ _).1 (hready.2.1 u hu)).elim (ih.done u) (hsk u)
    exact ⟨_, (ih.ground.call hg hd ho hR hready.1 hup hnm hm).1⟩

end

end Verif
