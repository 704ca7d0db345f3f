import Verif.Spec.Depth
import Verif.Proofs.Run
import Verif.Proofs.Legal

/-! # Executions in rounds -/

namespace Verif

open Spec

variable {N T K : Type} [DecidableEq N] [DecidableEq T] [DecidableEq K] {g : DGraph N T K}
  {tr : List (Ev N)} {st : Sched N T K}

/-- Chains are no longer than the range of a function that grows along them. -/
theorem chain_length {α : Type} {R : α → α → Prop} {S : α → Prop} {f : α → Nat} {M : Nat}
    (hlt : ∀ a b, S a → S b → R a b → f a < f b) (hb : ∀ a, S a → f a < M) :
    ∀ l : List α, l.IsChain R → (∀ a ∈ l, S a) → l.length ≤ M := by
  have key : ∀ (l : List α) (a : α), (a :: l).IsChain R → (∀ x ∈ a :: l, S x) → f a + l.length < M := by
    intro l
    induction l with
    | nil => intro a _ hs; exact hb a (hs a (by simp))
    | cons b l ih =>
      intro a hc hs
      rw [List.isChain_cons_cons] at hc
      have h1 := ih b hc.2 (fun x hx => hs x (List.mem_cons_of_mem _ hx))
      have h2 := hlt a b (hs a (by simp)) (hs b (by simp)) hc.1
      rw [List.length_cons]
      omega
  intro l hc hs
  cases l with
  | nil => simp
  | cons a l =>
    have := key l a hc hs
    rw [List.length_cons]
    omega

omit [DecidableEq T] [DecidableEq K] in
/-- Handing out one block takes exactly this block from the ready blocks. -/
theorem ready_hand {m : N} (hm : Ready g tr m) (hb : tr.count (.hand m) ≤ tr.count (.good m) + tr.count (.bad m) ∧
      tr.count (.good m) + tr.count (.bad m) ≤ tr.count (.hand m)) (x : N) :
    Ready g (tr ++ [.hand m]) x ↔ Ready g tr x ∧ x ≠ m := by
  have hd : ∀ y, Done (tr ++ [.hand m]) y ↔ Done tr y := by intro y; simp [Done]
  have hdead : Dead g (tr ++ [.hand m]) x ↔ Dead g tr x := by
    simp [Dead, List.count_append]
  unfold Ready
  simp only [hd, hdead]
  by_cases hx : x = m
  · subst hx
    have : Held (tr ++ [.hand x]) x := by
      unfold Held
      simp only [List.count_append, List.count_singleton]
      simp
      omega
    simp [this]
  · have : Held (tr ++ [.hand m]) x ↔ Held tr x := by
      unfold Held
      have h1 : ¬ m = x := fun h => hx h.symm
      simp [List.count_append, h1]
    simp [this, hx]

/-- All ready blocks can be handed out one after the other. -/
theorem take_ready (hg : g.OK) : ∀ (n : Nat) (F : Finset N) {tr : List (Ev N)} {st : Sched N T K}, F.card = n →
    Run g tr st → (∀ x, Ready g tr x ↔ x ∈ F) →
    ∃ (l : List N) (st' : Sched N T K), l.Nodup ∧ (∀ x, x ∈ l ↔ x ∈ F) ∧ Run g (tr ++ l.map .hand) st'
  | 0, F, tr, st, hF, h, _ => by
    rw [Finset.card_eq_zero] at hF
    subst hF
    exact ⟨[], st, List.nodup_nil, by simp, by simpa using h⟩
  | n + 1, F, tr, st, hF, h, hr => by
    obtain ⟨y, hy⟩ : F.Nonempty := by rw [← Finset.card_pos]; omega
    have hi := h.inv hg
    obtain ⟨skips, r, st', f1, f2, f3, f4, f5⟩ := hi.acquire hg (fun _ _ => .reject) (g.task y)
    have hs : skips = [] := by
      cases skips with
      | nil => rfl
      | cons a l => exact absurd (f3 0 a rfl).2.2 (by simp)
    subst hs
    have hrun := Run.acquire (fun _ _ => .reject) (g.task y) h f1
    cases r with
    | none => exact absurd (by simpa using (hr y).2 hy) ((f5 rfl).2 y rfl)
    | some m =>
      have hm : Ready g tr m := by simpa using (f4 m rfl).1
      have hrun' : Run g (tr ++ [.hand m]) st' := hrun
      have hmF := (hr m).1 hm
      have hbal := hi.bal m
      have hnh : ¬ Held tr m := hm.2.2.2.2
      have hnew : ∀ x, Ready g (tr ++ [.hand m]) x ↔ x ∈ F.erase m := by
        intro x
        rw [ready_hand hm ⟨Nat.not_lt.1 hnh, hbal.1⟩ x, hr x, Finset.mem_erase]
        exact And.comm
      obtain ⟨l, st'', h1, h2, h3⟩ := take_ready hg n (F.erase m)
        (by rw [Finset.card_erase_of_mem hmF]; omega) hrun' hnew
      refine ⟨m :: l, st'', ?_, ?_, ?_⟩
      · rw [List.nodup_cons]
        exact ⟨fun hm => by have := (h2 m).1 hm; simp at this, h1⟩
      · intro x
        rw [List.mem_cons, h2, Finset.mem_erase]
        constructor
        · rintro (rfl | hx)
          · exact hmF
          · exact hx.2
        · intro hx
          by_cases hxm : x = m
          · exact Or.inl hxm
          · exact Or.inr ⟨hxm, hx⟩
      · simpa using h3

/-- All held blocks can be given back as successful. -/
theorem give_back (hg : g.OK) : ∀ (l : List N) {tr : List (Ev N)} {st : Sched N T K}, l.Nodup → Run g tr st →
    (∀ x ∈ l, Held tr x) → ∃ st', Run g (tr ++ l.map .good) st'
  | [], tr, st, _, h, _ => ⟨st, by simpa using h⟩
  | m :: l, tr, st, hn, h, hh => by
    have hi := h.inv hg
    rw [List.nodup_cons] at hn
    have hp : LegalPick (fun (_ : Nat) (s : Finset N) => if hs : s.Nonempty then hs.choose else m) := by
      intro k s hs
      simp only [hs, dite_true]
      exact hs.choose_spec
    obtain ⟨st', hs, _⟩ := hi.release_good hg (hh m (by simp))
      (fun (_ : Nat) (s : Finset N) => if hs : s.Nonempty then hs.choose else m)
    have hrun := Run.good _ h (hh m (by simp)) hp hs
    have hh' : ∀ x ∈ l, Held (tr ++ [.good m]) x := by
      intro x hx
      have hxm : ¬ m = x := fun h => hn.1 (h ▸ hx)
      have := hh x (List.mem_cons_of_mem _ hx)
      unfold Held at this ⊢
      simpa [List.count_append, List.count_singleton, hxm] using this
    obtain ⟨st'', h'⟩ := give_back hg l hn.2 hrun hh'
    exact ⟨st'', by simpa using h'⟩

omit [DecidableEq N] in
theorem mem_good_rounds {bs : List (List N)} {x : N} : Ev.good x ∈ bs.flatMap roundOf ↔ x ∈ bs.flatten := by
  simp [roundOf, List.mem_flatMap, List.mem_flatten]

omit [DecidableEq N] in
theorem not_skip_rounds {bs : List (List N)} {x : N} : Ev.skip x ∉ bs.flatMap roundOf := by
  simp [roundOf, List.mem_flatMap]

omit [DecidableEq N] in
theorem not_bad_rounds {bs : List (List N)} {x : N} : Ev.bad x ∉ bs.flatMap roundOf := by
  simp [roundOf, List.mem_flatMap]

omit [DecidableEq N] in
theorem done_rounds {bs : List (List N)} {x : N} : Done (bs.flatMap roundOf) x ↔ x ∈ bs.flatten := by
  unfold Done
  rw [mem_good_rounds]
  simp only [not_skip_rounds, or_false]

theorem count_round (l : List N) (x : N) :
    (roundOf l).count (.good x) = (roundOf l).count (.hand x) := by
  have h1 : (l.map Ev.good).count (.good x) = l.count x :=
    List.count_map_of_injective _ _ (fun a b h => by injection h) _
  have h2 : (l.map Ev.hand).count (.hand x) = l.count x :=
    List.count_map_of_injective _ _ (fun a b h => by injection h) _
  have h3 : (l.map Ev.hand).count (.good x) = 0 := List.count_eq_zero.2 (by simp)
  have h4 : (l.map Ev.good).count (.hand x) = 0 := List.count_eq_zero.2 (by simp)
  simp [roundOf, List.count_append, h1, h2, h3, h4]

theorem not_held_rounds {bs : List (List N)} {x : N} : ¬ Held (bs.flatMap roundOf) x := by
  unfold Held
  have : (bs.flatMap roundOf).count (.good x) = (bs.flatMap roundOf).count (.hand x) := by
    induction bs with
    | nil => rfl
    | cons l bs ih => simp only [List.flatMap_cons, List.count_append, ih, count_round]
  omega

/-- With enough workers, as many rounds suffice as a function that grows along the dependencies has values. -/
theorem rounds_run (hg : g.OK) {f : N → Nat} (hf : ∀ b ∈ g.nodes, ∀ a ∈ g.up b, f a < f b) : ∀ k : Nat,
    ∃ (bs : List (List N)) (st : Sched N T K), bs.length = k ∧ Run g (bs.flatMap roundOf) st ∧ bs.flatten.Nodup ∧
      (∀ x ∈ bs.flatten, x ∈ g.nodes) ∧ ∀ x ∈ g.nodes, f x < k → x ∈ bs.flatten
  | 0 => ⟨[], _, rfl, Run.init, by simp, by simp, fun x _ h => absurd h (Nat.not_lt_zero _)⟩
  | k + 1 => by
    obtain ⟨bs, st, h1, h2, h3, h4, h5⟩ := rounds_run hg hf k
    classical
    obtain ⟨l, st1, l1, l2, l3⟩ := take_ready hg _ (g.nodes.toFinset.filter (Ready g (bs.flatMap roundOf))) rfl h2
      (fun x => by
        rw [Finset.mem_filter, List.mem_toFinset]
        exact ⟨fun hx => ⟨hx.1, hx⟩, fun hx => hx.2⟩)
    have hlr : ∀ x, x ∈ l ↔ Ready g (bs.flatMap roundOf) x := by
      intro x
      rw [l2, Finset.mem_filter, List.mem_toFinset]
      exact ⟨fun hx => hx.2, fun hx => ⟨hx.1, hx⟩⟩
    have hheld : ∀ x ∈ l, Held (bs.flatMap roundOf ++ l.map .hand) x := by
      intro x hx
      have hnh : ¬ Held (bs.flatMap roundOf) x := not_held_rounds
      have hbal := (h2.inv hg).bal x
      have c1 : (l.map Ev.hand).count (.hand x) = l.count x :=
        List.count_map_of_injective _ _ (fun a b h => by injection h) _
      have c2 : (l.map Ev.hand).count (.good x) = 0 := List.count_eq_zero.2 (by simp)
      have c3 : (l.map Ev.hand).count (.bad x) = 0 := List.count_eq_zero.2 (by simp)
      have c4 : 0 < l.count x := List.count_pos_iff.2 hx
      unfold Held at hnh ⊢
      simp only [List.count_append, c1, c2, c3]
      omega
    obtain ⟨st2, h6⟩ := give_back hg l l1 l3 hheld
    refine ⟨bs ++ [l], st2, by simp [h1], ?_, ?_, ?_, ?_⟩
    · simpa [roundOf] using h6
    · rw [List.flatten_append, List.flatten_singleton, List.nodup_append]
      refine ⟨h3, l1, ?_⟩
      rintro x hx y hy rfl
      exact ((hlr x).1 hy).2.2.1 (done_rounds.2 hx)
    · intro x hx
      rw [List.flatten_append, List.flatten_singleton, List.mem_append] at hx
      rcases hx with hx | hx
      · exact h4 x hx
      · exact ((hlr x).1 hx).1
    · intro x hx hlt
      rw [List.flatten_append, List.flatten_singleton, List.mem_append]
      by_cases hin : x ∈ bs.flatten
      · exact Or.inl hin
      · right
        rw [hlr]
        refine ⟨hx, fun u hu => done_rounds.2 (h5 u (hg.up_mem x hx u hu) ?_), fun hd => hin (done_rounds.1 hd),
          fun hd => not_bad_rounds hd.1, not_held_rounds⟩
        have := hf x hx u hu
        omega

/-- No execution in rounds has fewer rounds than a chain of dependencies has blocks. -/
theorem rounds_lower (hg : g.OK) {bs : List (List N)} (h : Run g (bs.flatMap roundOf) st) {l : List N}
    (hc : l.IsChain (Edge g)) (hl : ∀ x ∈ l, x ∈ bs.flatten) : l.length ≤ bs.length := by
  have hleg := h.legal hg
  refine chain_length (S := (· ∈ bs.flatten)) (f := fun x => bs.findIdx (fun b => decide (x ∈ b))) ?_ ?_ l hc hl
  · intro a b _ hb hab
    have hj : bs.findIdx (fun c => decide (b ∈ c)) < bs.length := by
      rw [List.findIdx_lt_length]
      obtain ⟨c, hc, hbc⟩ := List.mem_flatten.1 hb
      exact ⟨c, hc, by simpa using hbc⟩
    have hbj : b ∈ bs[bs.findIdx (fun c => decide (b ∈ c))] := by
      simpa using List.findIdx_getElem (w := hj)
    generalize bs.findIdx (fun c => decide (b ∈ c)) = j at hj hbj ⊢
    obtain ⟨p, q, hpq⟩ := List.append_of_mem hbj
    have e : bs = bs.take j ++ bs[j] :: bs.drop (j + 1) := by
      rw [List.getElem_cons_drop, List.take_append_drop]
    have etr : bs.flatMap roundOf = ((bs.take j).flatMap roundOf ++ p.map .hand) ++ .hand b ::
        (q.map .hand ++ bs[j].map .good ++ (bs.drop (j + 1)).flatMap roundOf) := by
      conv_lhs => rw [e]
      rw [List.flatMap_append, List.flatMap_cons]
      have : roundOf bs[j] = p.map .hand ++ .hand b :: (q.map .hand ++ bs[j].map .good) := by
        unfold roundOf
        conv_lhs => rw [hpq]
        rw [← hpq]
        conv_lhs => enter [1]; rw [hpq]
        simp
      rw [this]
      simp
    have hr : Ready g _ b := hleg _ _ _ etr
    have hd := hr.2.1 a hab
    have hga : a ∈ (bs.take j).flatten := by
      rcases hd with hd | hd
      · rw [List.mem_append] at hd
        rcases hd with hd | hd
        · exact mem_good_rounds.1 hd
        · simp at hd
      · rw [List.mem_append] at hd
        rcases hd with hd | hd
        · exact absurd hd not_skip_rounds
        · simp at hd
    obtain ⟨c, hc1, hc2⟩ := List.mem_flatten.1 hga
    obtain ⟨i, hi, rfl⟩ := List.getElem_of_mem hc1
    rw [List.length_take] at hi
    rw [List.getElem_take] at hc2
    have : bs.findIdx (fun b => decide (a ∈ b)) ≤ i := by
      by_contra hcon
      have := List.not_of_lt_findIdx (not_le.1 hcon)
      simp [hc2] at this
    omega
  · intro a ha
    rw [List.findIdx_lt_length]
    obtain ⟨c, hc, hbc⟩ := List.mem_flatten.1 ha
    exact ⟨c, hc, by simpa using hbc⟩

end Verif
