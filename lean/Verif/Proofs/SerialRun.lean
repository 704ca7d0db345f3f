import Verif.Proofs.Serial

/-! # Executions of the serial server: lemmas -/

set_option linter.unusedSectionVars false

namespace Verif

open Spec

variable {N T K : Type} [DecidableEq N] [DecidableEq T] [DecidableEq K] {g : DGraph N T K}
  {served : List T} {σ σ' : Serial N T K} {k : SerTick N T} {ks : List (SerTick N T)}

/-! ### From the log to the history -/

theorem mem_hand (os : List (SerOut N T)) (n : N) : .hand n ∈ serEvs os ↔ .call n ∈ os := by
  unfold serEvs
  rw [List.mem_filterMap]
  constructor
  · rintro ⟨o, h1, h2⟩
    cases o with
    | call m => cases h2; exact h1
    | release m s => cases s <;> cases h2
    | _ => cases h2
  · exact fun h => ⟨_, h, rfl⟩

theorem mem_good (os : List (SerOut N T)) (n : N) :
    .good n ∈ serEvs os ↔ .release n .success ∈ os := by
  unfold serEvs
  rw [List.mem_filterMap]
  constructor
  · rintro ⟨o, h1, h2⟩
    cases o with
    | release m s => cases s <;> cases h2; exact h1
    | _ => cases h2
  · exact fun h => ⟨_, h, rfl⟩

theorem mem_bad (os : List (SerOut N T)) (n : N) : .bad n ∈ serEvs os ↔ .release n .failed ∈ os := by
  unfold serEvs
  rw [List.mem_filterMap]
  constructor
  · rintro ⟨o, h1, h2⟩
    cases o with
    | release m s => cases s <;> cases h2; exact h1
    | _ => cases h2
  · exact fun h => ⟨_, h, rfl⟩

theorem mem_skip (os : List (SerOut N T)) (n : N) : .skip n ∈ serEvs os ↔ .skip n ∈ os := by
  unfold serEvs
  rw [List.mem_filterMap]
  constructor
  · rintro ⟨o, h1, h2⟩
    cases o with
    | skip m => cases h2; exact h1
    | release m s => cases s <;> cases h2
    | _ => cases h2
  · exact fun h => ⟨_, h, rfl⟩

theorem count_call (n : N) : ∀ os : List (SerOut N T),
    os.count (.call n) = (serEvs os).count (.hand n)
  | [] => rfl
  | o :: os => by
    have ih := count_call n os
    have e : serEvs (o :: os) = serEvs [o] ++ serEvs os := serEvs_append [o] os
    rw [e, List.count_append, ← ih, List.count_cons, Nat.add_comm]
    congr 1
    cases o with
    | call m =>
      have : serEvs [(SerOut.call m : SerOut N T)] = [.hand m] := rfl
      rw [this]
      by_cases hm : m = n <;> simp [hm]
    | skip m =>
      have : serEvs [(SerOut.skip m : SerOut N T)] = [.skip m] := rfl
      rw [this]; simp
    | release m s =>
      have : (serEvs [(SerOut.release m s : SerOut N T)]).count (.hand n) = 0 := by
        cases s with
        | success =>
          have : serEvs [(SerOut.release m .success : SerOut N T)] = [.good m] := rfl
          rw [this]; simp
        | failed =>
          have : serEvs [(SerOut.release m .failed : SerOut N T)] = [.bad m] := rfl
          rw [this]; simp
        | _ => rfl
      rw [this]; simp
    | taskStart t => simp only [beq_iff_eq, reduceCtorEq, if_false]; rfl
    | callback t => simp only [beq_iff_eq, reduceCtorEq, if_false]; rfl
    | acquired t => simp only [beq_iff_eq, reduceCtorEq, if_false]; rfl
    | released t => simp only [beq_iff_eq, reduceCtorEq, if_false]; rfl
    | taskDone t => simp only [beq_iff_eq, reduceCtorEq, if_false]; rfl
    | exit => simp only [beq_iff_eq, reduceCtorEq, if_false]; rfl

/-! ### Executions with well-behaved functions -/

/-- Without FAILED marks no block is released with FAILED. -/
theorem no_bad (hg : g.Loose) (h : SerRun g served ks σ) (hk : ∀ k ∈ ks, SerTick.Succeeds k) (n : N) :
    .bad n ∉ serEvs σ.out := by
  induction h with
  | init => simp [Serial.init, serEvs]
  | @pass ks σ σ' k h he hpick hp ih =>
    have ih := ih (fun k hk' => hk k (List.mem_append_left _ hk'))
    rcases pass_cases hg (h.inv hg) he hpick with ⟨σ1, sk, h1, h2⟩ | ⟨sk, m, st, _, _, h1 | h1 | ⟨σ1, h1, h2⟩⟩
    · rw [h1] at hp; cases hp
      rw [h2.evs]
      simp [ih]
    · rw [h1.2] at hp; cases hp
    · rw [h1.2.2] at hp; cases hp
    · rw [h1] at hp; cases hp
      rw [h2.evs, acquireEvents_some]
      have hs : σ.statusAfter m (k.proc m) = .failed → m = n → False := by
        intro hs hmn
        have h3 := (hk k (by simp)) m
        unfold Serial.statusAfter at hs
        split at hs
        · rename_i s hs'
          split at hs
          · rename_i e; rw [e] at hs'; exact h3.2 hs'
          · cases hs
        · split at hs
          · rename_i hm
            rw [hmn] at hm
            exact ih (((h.inv hg).marked n).1 hm)
          · cases hs
      simp only [List.mem_append, ih, false_or, List.mem_singleton, relEv]
      rintro ((h4 | h4) | h4)
      · simp at h4
      · cases h4
      · split at h4
        · rename_i e; cases h4; exact hs e rfl
        · cases h4

/-- Without check functions no block is skipped. -/
theorem no_skip (hg : g.Loose) (h : SerRun g served ks σ) (hk : ∀ k ∈ ks, SerTick.NoSkips k) (n : N) :
    .skip n ∉ serEvs σ.out := by
  induction h with
  | init => simp [Serial.init, serEvs]
  | @pass ks σ σ' k h he hpick hp ih =>
    have ih := ih (fun k hk' => hk k (List.mem_append_left _ hk'))
    have hk' := hk k (by simp)
    rcases pass_cases hg (h.inv hg) he hpick with ⟨σ1, sk, h1, h2⟩ | ⟨sk, m, st, _, _, h1 | h1 | ⟨σ1, h1, h2⟩⟩
    · rw [h1] at hp; cases hp
      have hnil : sk = [] := by
        rcases h2.why with h3 | h3
        · exact h3.2.1
        · obtain ⟨sk', r, st', f1, _, f3, _⟩ := acquireAny_spec hg k.chk (σ.sched.getReadyTasks g)
            (h.inv hg).run
          rw [f1] at h3
          cases h3
          rw [List.eq_nil_iff_forall_not_mem]
          intro x hx
          obtain ⟨_, i, hi⟩ := f3 x hx
          exact hk' _ _ _ hi
      rw [h2.evs, hnil]
      simpa using ih
    · rw [h1.2] at hp; cases hp
    · rw [h1.2.2] at hp; cases hp
    · rw [h1] at hp; cases hp
      have hnil : sk = [] := by
        rw [List.eq_nil_iff_forall_not_mem]
        intro x hx
        obtain ⟨i, hi⟩ := (h2.run hg (h.inv hg) hpick).2.1 x hx
        exact hk' _ _ _ hi
      rw [h2.evs, acquireEvents_some, hnil]
      simp only [List.mem_append, ih, false_or, List.mem_singleton, relEv, List.map_nil, List.nil_append]
      rintro (h4 | h4)
      · cases h4
      · split at h4 <;> cases h4

theorem exact_of_no_bad {tr : List (Ev N)} (h : ∀ n, .bad n ∉ tr) : OrphanExact g tr :=
  exact_of_one fun _ _ f _ hf _ _ _ => absurd hf.1 (h f)

/-- The number of passes is bounded by the number of calls. -/
theorem passes_le (hg : g.Loose) (h : SerRun g served ks σ) :
    ks.length ≤ (serEvs σ.out).countP (fun e => decide (e = .hand e.node)) +
      (if σ.ended then 1 else 0) := by
  induction h with
  | init => simp
  | @pass ks σ σ' k h he hpick hp ih =>
    rw [he] at ih
    simp only [Bool.false_eq_true, if_false] at ih
    rw [List.length_append, List.length_singleton]
    rcases pass_cases hg (h.inv hg) he hpick with ⟨σ1, sk, h1, h2⟩ | ⟨sk, m, st, _, _, h1 | h1 | ⟨σ1, h1, h2⟩⟩
    · rw [h1] at hp; cases hp
      rw [h2.evs, h2.ended, List.countP_append]
      simp; omega
    · rw [h1.2] at hp; cases hp
    · rw [h1.2.2] at hp; cases hp
    · rw [h1] at hp; cases hp
      rw [h2.evs, acquireEvents_some, List.countP_append, List.countP_append, List.countP_append]
      have : [Ev.hand m].countP (fun e => decide (e = Ev.hand e.node)) = 1 := by simp [Ev.node]
      omega

theorem sum_map_le (l : List N) (a b : N → Nat) (h : ∀ n, a n ≤ b n) : (l.map a).sum ≤ (l.map b).sum := by
  induction l with
  | nil => exact le_refl _
  | cons x l ih =>
    rw [List.map_cons, List.map_cons, List.sum_cons, List.sum_cons]
    have := h x
    omega

/-- The number of hand-outs, block by block. -/
theorem hands_by_node (hg : g.Loose) {tr : List (Ev N)} {st : Sched N T K} (h : Run g tr st) :
    tr.countP (fun e => decide (e = .hand e.node)) = (g.nodes.map (fun n => tr.count (.hand n))).sum := by
  rw [List.countP_eq_length_filter, length_by_node g.nodes hg.nodes_nodup _
    (fun e he => (h.facts hg).node e (List.mem_filter.1 he).1)]
  congr 1
  apply List.map_congr_left
  intro n _
  rw [List.countP_filter, List.count, List.countP_congr]
  intro e _
  cases e <;> simp only [Ev.node, beq_iff_eq, decide_true, Bool.and_true, reduceCtorEq,
    Bool.and_false, decide_false, Bool.false_eq_true, Ev.hand.injEq]
  exact decide_eq_true_iff

/-- A block that has completed was processed or skipped; without skips and failures it was processed
exactly once. -/
theorem hand_once (hg : g.Loose) (h : SerInv g served σ) (hbad : ∀ n, .bad n ∉ serEvs σ.out) {n : N}
    (hn : .good n ∈ serEvs σ.out) : (serEvs σ.out).count (.hand n) = 1 := by
  have h1 := (h.run.facts hg).once n
  have h2 := (h.run.facts hg).bal n
  have h3 := h.idle n
  have h4 : (serEvs σ.out).count (.bad n) = 0 := List.count_eq_zero.2 (hbad n)
  have h5 : 0 < (serEvs σ.out).count (.good n) := List.count_pos_iff.2 hn
  unfold Held at h3
  omega

/-- A pass of the loop does not raise, as long as no block has been orphaned twice. -/
theorem SerInv.pass_ok (hg : g.Loose) (hi : SerInv g served σ) (hs : ∀ t ∈ g.tasks, t ∈ served)
    (hx : OrphanExact g (serEvs σ.out)) (he : σ.ended = false) (hpick : LegalPick k.pick)
    (hk : SerTick.Returns k) : ∃ σ', σ.pass g served k = .ok σ' := by
  rcases pass_cases hg hi he hpick with ⟨σ1, sk, h1, h2⟩ | ⟨sk, m, st, f1, hr, h1 | h1 | ⟨σ1, h1, h2⟩⟩
  · exact ⟨σ1, h1⟩
  · exfalso
    have hfin : g.task m ∈ σ.finished := by
      by_contra hc
      exact h1.1 ((hi.funcs _).2 ⟨hs _ (hg.task_mem m hr.1), hc⟩)
    have hf := hi.fin hx _ hfin m hr.1 rfl
    obtain ⟨sk', r, st', f1', f2, _⟩ := acquireAny_spec hg k.chk (σ.sched.getReadyTasks g) hi.run
    rw [f1] at f1'
    cases f1'
    have hf' : Done (serEvs σ.out ++ acquireEvents sk (some m)) m ∨
        Dead g (serEvs σ.out ++ acquireEvents sk (some m)) m ∨
        Orphan g (serEvs σ.out ++ acquireEvents sk (some m)) m :=
      hf.imp done_mono (Or.imp dead_mono orphan_mono)
    have hd : Done (serEvs σ.out ++ sk.map .skip) m → False := hr.2.2.1
    have hheld : Held (serEvs σ.out ++ acquireEvents sk (some m)) m := by
      obtain ⟨c1, c2⟩ := (f2.facts hg).bal m
      rw [(f2.facts hg).held_iff]
      have h1 := ((hi.run.facts hg).bal m).1
      have h6 := hi.idle m
      have h5 : ∀ e : Ev N, (∀ x, e ≠ .skip x) → (sk.map Ev.skip).count e = 0 := by
        intro e he
        rw [List.count_eq_zero]
        intro hm
        obtain ⟨x, _, rfl⟩ := List.mem_map.1 hm
        exact he x rfl
      unfold Held at h6
      rw [acquireEvents_some]
      simp only [List.count_append, h5 (.good m) (by simp), h5 (.bad m) (by simp),
        h5 (.hand m) (by simp)]
      simp
      omega
    obtain ⟨e1, e2, e3⟩ := (C19_loose_disjoint_partial hg f2 m).2.1 hheld
    rcases hf' with h | h | h
    · exact e1 h
    · exact e2 h
    · exact e3 h
  · exact absurd h1.2.1 (hk m)
  · exact ⟨σ1, h1⟩

theorem pass_ok (hg : g.Loose) (h : SerRun g served ks σ) (hs : ∀ t ∈ g.tasks, t ∈ served)
    (hx : OrphanExact g (serEvs σ.out)) (he : σ.ended = false) (hpick : LegalPick k.pick)
    (hk : SerTick.Returns k) : ∃ σ', σ.pass g served k = .ok σ' :=
  (h.inv hg).pass_ok hg hs hx he hpick hk

/-- The loop ends when passes do not raise and their number is bounded. -/
theorem returns_of (tick : Nat → SerTick N T) (B : Nat) (hpick : ∀ i, LegalPick (tick i).pick)
    (hok : ∀ m σ, SerRun g served ((List.range m).map tick) σ → σ.ended = false →
      ∃ σ', σ.pass g served (tick m) = .ok σ')
    (hB : ∀ m σ, SerRun g served ((List.range m).map tick) σ → m ≤ B) :
    ∃ m σ, m ≤ B ∧ SerRun g served ((List.range m).map tick) σ ∧ σ.ended = true := by
  have key : ∀ m, (∃ j σ, j ≤ m ∧ SerRun g served ((List.range j).map tick) σ ∧ σ.ended = true) ∨
      ∃ σ, SerRun g served ((List.range m).map tick) σ ∧ σ.ended = false := by
    intro m
    induction m with
    | zero => exact Or.inr ⟨_, SerRun.init, rfl⟩
    | succ m ih =>
      rcases ih with ⟨j, σ, h1, h2⟩ | ⟨σ, h1, h2⟩
      · exact Or.inl ⟨j, σ, by omega, h2⟩
      · obtain ⟨σ', h3⟩ := hok m σ h1 h2
        have h4 : SerRun g served ((List.range (m + 1)).map tick) σ' := by
          rw [List.range_succ, List.map_append]
          exact SerRun.pass h1 h2 (hpick m) h3
        rcases hb : σ'.ended with _ | _
        · exact Or.inr ⟨σ', h4, hb⟩
        · exact Or.inl ⟨m + 1, σ', le_refl _, h4, hb⟩
  rcases key (B + 1) with ⟨j, σ, _, h2, h3⟩ | ⟨σ, h1, _⟩
  · exact ⟨j, σ, hB j σ h2, h2, h3⟩
  · have := hB _ _ h1
    omega

end Verif
