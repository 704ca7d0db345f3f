import Verif.Model.Bookkeeper
import Mathlib.Data.List.Nodup
import Mathlib.Data.List.Enum

/-! # Lemmas about the bookkeeper -/

set_option linter.unusedSectionVars false

namespace Verif

namespace Book

variable {N K S : Type} [DecidableEq K] [DecidableEq S] {b : Book N K S} {k : K}

theorem get_none_iff : b.get k = none ↔ k ∉ b.map (·.1) := by
  unfold get
  rw [Option.map_eq_none_iff, List.find?_eq_none]
  simp only [decide_eq_true_eq, List.mem_map, not_exists, not_and]

theorem get_mem {l : BlockLog N S} (h : b.get k = some l) : (k, l) ∈ b := by
  unfold get at h
  rw [Option.map_eq_some_iff] at h
  obtain ⟨⟨k', l'⟩, h1, rfl⟩ := h
  have h2 := List.find?_some h1
  rw [decide_eq_true_eq] at h2
  have h2 : k' = k := h2
  subst h2
  exact List.mem_of_find?_eq_some h1

theorem get_of_mem (hn : (b.map (·.1)).Nodup) {l : BlockLog N S} (h : (k, l) ∈ b) :
    b.get k = some l := by
  rcases hg : b.get k with _ | l'
  · exact absurd (List.mem_map_of_mem h) (get_none_iff.1 hg)
  · have := List.inj_on_of_nodup_map hn h (get_mem hg) rfl
    cases this
    rfl

theorem get_append_single (k' : K) (l : BlockLog N S) (h : b.get k' = none) :
    get (b ++ [(k', l)]) k = if k = k' then some l else b.get k := by
  unfold get at *
  rw [List.find?_append]
  by_cases hk : k = k'
  · subst hk
    rw [Option.map_eq_none_iff] at h
    simp [h]
  · have hk' : ¬ k' = k := fun e => hk e.symm
    simp [hk, hk']

theorem get_filter_key (p : K → Bool) :
    get (b.filter (fun e => p e.1)) k = if p k then b.get k else none := by
  unfold get
  rw [List.find?_filter]
  by_cases h : p k
  · rw [if_pos h]
    congr 2
    funext e
    by_cases he : e.1 = k
    · have h' : p e.1 = true := by rw [he]; exact h
      simp only [he, h, decide_true, and_self]
    · simp [he]
  · rw [if_neg h, Option.map_eq_none_iff, List.find?_eq_none]
    intro e _ he
    rw [decide_eq_true_eq] at he
    obtain ⟨h1, h2⟩ := he
    rw [decide_eq_true_eq] at h2
    rw [h2] at h1
    exact h h1

theorem nodup_filter {p : K × BlockLog N S → Bool} (h : (b.map (·.1)).Nodup) :
    ((b.filter p).map (·.1)).Nodup := h.sublist (List.filter_sublist.map _)

theorem del_ok {l : BlockLog N S} (h : b.get k = some l) :
    b.del k = .ok (b.filter (fun e => e.1 ≠ k)) := by
  unfold del
  rw [h]

theorem popLost_ok : ∀ (l : List (K × BlockLog N S)) (b : Book N K S) (acc : List N),
    (l.map (·.1)).Nodup → (∀ e ∈ l, e ∈ b) → (b.map (·.1)).Nodup →
    popLost (l.map (·.1)) b acc =
      .ok (acc ++ l.map (·.2.block), b.filter (fun e => e.1 ∉ l.map (·.1)))
  | [], b, acc, _, _, _ => by simp [popLost]
  | (k, log) :: l, b, acc, h1, h2, h3 => by
    have hk : (k, log) ∈ b := h2 _ List.mem_cons_self
    have hg := get_of_mem h3 hk
    rw [List.map_cons, List.nodup_cons] at h1
    rw [List.map_cons, popLost, hg]
    simp only
    rw [del_ok hg]
    simp only
    rw [popLost_ok l _ _ h1.2 ?_ (nodup_filter h3)]
    · rw [List.map_cons, List.append_assoc, List.filter_filter]
      congr 3
      funext e
      by_cases h1 : e.1 = k <;> by_cases h2 : e.1 ∈ l.map (·.1) <;> simp [h1, h2]
    · intro e he
      rw [List.mem_filter]
      refine ⟨h2 e (List.mem_cons_of_mem _ he), ?_⟩
      rw [decide_eq_true_eq]
      intro hek
      have := List.mem_map_of_mem (f := fun x => x.1) he
      rw [hek] at this
      exact h1.1 this

/-- Blocks that are lost: the stream is closed or the time is over. -/
def LostAt (closed : S → Bool) (timeout : Option Int) (clock : Nat → Int) (i : Nat)
    (log : BlockLog N S) : Bool :=
  closed log.stream || (match timeout with
    | none => false
    | some d => decide (clock i - log.sentAt > d))

theorem lostIds_eq (closed : S → Bool) (timeout : Option Int) (clock : Nat → Int) :
    ∀ (b : Book N K S) (i : Nat),
      (∀ e j, (e, j) ∈ b.zipIdx i → ¬ (closed e.2.stream = true ∧
        ∃ d, timeout = some d ∧ clock j - e.2.sentAt > d)) →
      lostIds closed timeout clock i b =
        ((b.zipIdx i).filter (fun e => LostAt closed timeout clock e.2 e.1.2)).map (·.1.1)
  | [], _, _ => rfl
  | (k, log) :: b, i, h => by
    have ih := lostIds_eq closed timeout clock b (i + 1)
      (fun e j he => h e j (by rw [List.zipIdx_cons]; exact List.mem_cons_of_mem _ he))
    have h0 := h (k, log) i (by rw [List.zipIdx_cons]; exact List.mem_cons_self)
    rw [List.zipIdx_cons, List.filter_cons]
    change _ ++ _ ++ lostIds closed timeout clock (i + 1) b = _
    rw [ih]
    unfold LostAt at *
    rcases timeout with _ | d
    · cases hc : closed log.stream <;> simp
    · by_cases hd : clock i - log.sentAt > d
      · have hc : closed log.stream = false := by
          cases hc : closed log.stream
          · rfl
          · exact absurd ⟨hc, d, rfl, hd⟩ h0
        have hd' : d < clock i - log.sentAt := hd
        simp [hc, hd']
      · have hd' : ¬ d < clock i - log.sentAt := hd
        cases hc : closed log.stream <;> simp [hd']

theorem mem_of_zipIdx {α : Type} {l : List α} {i j : Nat} {a : α} (h : (a, j) ∈ l.zipIdx i) : a ∈ l := by
  have := List.mem_map_of_mem (f := Prod.fst) h
  rwa [List.zipIdx_map_fst] at this

theorem getLost_ok (closed : S → Bool) (timeout : Option Int) (clock : Nat → Int)
    (hn : (b.map (·.1)).Nodup)
    (h : ∀ e j, (e, j) ∈ b.zipIdx → ¬ (closed e.2.stream = true ∧
        ∃ d, timeout = some d ∧ clock j - e.2.sentAt > d)) :
    b.getLost closed timeout clock =
      .ok ((b.zipIdx.filter (fun e => LostAt closed timeout clock e.2 e.1.2)).map (·.1.2.block),
        (b.zipIdx.filter (fun e => ! LostAt closed timeout clock e.2 e.1.2)).map (·.1)) := by
  unfold getLost
  rw [lostIds_eq closed timeout clock b 0 h]
  have hsub : ((b.zipIdx.filter (fun e => LostAt closed timeout clock e.2 e.1.2)).map (·.1)).Sublist b := by
    have := (List.filter_sublist (p := fun e : (K × BlockLog N S) × Nat =>
      LostAt closed timeout clock e.2 e.1.2) (l := b.zipIdx)).map Prod.fst
    rwa [List.zipIdx_map_fst] at this
  have := popLost_ok ((b.zipIdx.filter (fun e => LostAt closed timeout clock e.2 e.1.2)).map (·.1)) b []
    (hn.sublist (hsub.map _)) (fun e he => hsub.subset he) hn
  simp only [List.map_map, List.nil_append] at this
  change popLost (List.map ((fun x : K × BlockLog N S => x.1) ∘
    fun x : (K × BlockLog N S) × Nat => x.1) _) b [] = _
  rw [this]
  refine congrArg Except.ok (Prod.ext rfl ?_)
  simp only
  conv_lhs => arg 2; rw [← List.zipIdx_map_fst 0 b]
  rw [List.filter_map]
  congr 1
  apply List.filter_congr
  rintro ⟨e, i⟩ he
  have hnd : (b.zipIdx.map (fun x => x.1.1)).Nodup := by
    have : (b.zipIdx.map (fun x => x.1.1)) = b.map (·.1) := by
      conv_rhs => rw [← List.zipIdx_map_fst 0 b]
      rw [List.map_map]
      rfl
    rw [this]
    exact hn
  simp only [Function.comp]
  cases hl : LostAt closed timeout clock i e.2
  · simp only [Bool.not_false, decide_eq_true_eq]
    intro hm
    obtain ⟨⟨e', i'⟩, h1, h2⟩ := List.mem_map.1 hm
    obtain ⟨h3, h4⟩ := List.mem_filter.1 h1
    have := List.inj_on_of_nodup_map hnd h3 he h2
    cases this
    simp only at h4
    rw [hl] at h4
    cases h4
  · simp only [Bool.not_true, decide_eq_false_iff_not, not_not]
    exact List.mem_map.2 ⟨(e, i), List.mem_filter.2 ⟨he, hl⟩, rfl⟩

/-- Without a timeout the lost blocks are those whose stream is closed. -/
theorem getLost_none (closed : S → Bool) (clock : Nat → Int) (hn : (b.map (·.1)).Nodup) :
    b.getLost closed none clock =
      .ok ((b.filter (fun e => closed e.2.stream)).map (·.2.block),
        b.filter (fun e => ! closed e.2.stream)) := by
  rw [getLost_ok closed none clock hn (by rintro e j _ ⟨_, d, h, _⟩; cases h)]
  have key : ∀ p : K × BlockLog N S → Bool,
      (b.zipIdx.filter (fun e => p e.1)).map (·.1) = b.filter p := by
    intro p
    conv_rhs => rw [← List.zipIdx_map_fst 0 b, List.filter_map]
    rfl
  have h1 := key (fun e => closed e.2.stream)
  have h2 := key (fun e => ! closed e.2.stream)
  unfold LostAt
  simp only [Bool.or_false]
  rw [h2, ← h1, List.map_map]
  rfl

end Book
end Verif
