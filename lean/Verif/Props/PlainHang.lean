import Verif.Props.ServerAgain

/-! # C81: a plain pipeline of three stages that hangs -/


namespace Verif

open Spec Pipeline Props

namespace Ex

/-- The dependency graph of the three stages, and the order of the tasks `run_blockwise` produces. -/
noncomputable def stageView : DGraph (Block 1) Nat (Nat × Int) := (pipe [stage0, stage1, stage2]).view
def stageConf : SConf Nat := ⟨[0, 1, 2], fun _ => none⟩

/-- Block `[k, k+1)` of stage `t`. -/
def stageBlk (t : Nat) (k : Int) : Block 1 := blk1 t k (k + 1) k (k + 1) k

/-- One worker per stage: 10, 11 and 12. -/
def stageRecv : List (Server.Recv (Block 1) Nat Nat) :=
  [.msg (.acquire 2) 12, .msg (.release (stageBlk 2 0) .success) 12, .msg (.acquire 1) 11,
    .msg (.acquire 2) 12, .msg (.release (stageBlk 1 0) .success) 11, .msg (.acquire 0) 10,
    .msg (.acquire 1) 11, .msg (.release (stageBlk 0 0) .success) 10, .msg (.acquire 0) 10,
    .msg (.release (stageBlk 2 1) .success) 12, .msg (.acquire 2) 12]

/-- First these messages, then none. -/
noncomputable def stageTick (i : Nat) : Server.Tick (Block 1) Nat Nat :=
  match stageRecv[i]? with
  | some r => tick (anyPick (stageBlk 0 0)) r
  | none => { tick (anyPick (stageBlk 0 0)) .nothing with late := true }

/-- Is this a message with which `s` gives `n` back? -/
def stageBack (r : Option (Server.Recv (Block 1) Nat Nat)) (n : Block 1) (s : Nat) : Bool :=
  match r with
  | some (.msg (.release m _) s') => m == n && s' == s
  | _ => false

/-- If this takes a block back in iteration `i`, does somebody ask for its task later? -/
def stageAgain (i : Nat) (o : Out (Block 1) Nat Nat) : Bool :=
  match o with
  | .release n _ => (List.range 11).any fun j => i < j && match stageRecv[j]? with
    | some (.msg (.acquire t) _) => t == n.taskId
    | _ => false
  | _ => true

end Ex

open Ex

/-- C81 is false: `run_blockwise` of a plain pipeline with three stages and one worker each can hang, although
every client that has a block gives it back and asks again, and no block fails: one worker waits for a block of its
stage that is not ready, and the server never answers the others. -/
theorem C81_false : ∃ (tasks r : List (Task 1)) (p : Pipeline 1) (cfg : SConf Nat)
    (σ : Nat → Server (Block 1) Nat (Nat × Int) Nat) (k : Nat → Server.Tick (Block 1) Nat Nat),
    PlainTasks tasks ∧ Builds tasks r p ∧ cfg.served = r.map TTree.id ∧ Forever p.view cfg σ k ∧
    Fair p.view σ k ∧ AsksAgain p.view σ k ∧ (∀ i n, .release n .failed ∉ (σ i).out) ∧ ∀ i, (σ i).stop = false := by
  have hok : stageView.OK := stage_builds.ok stage_plain
  let σ := foreverOf stageView stageConf stageTick
  have hgoodmsg : ∀ r ∈ stageRecv, goodRecv stageView stageConf r = true := by decide +kernel
  have hF : Forever stageView stageConf σ stageTick := by
    refine C71_exists hok (fun i => ?_)
    unfold stageTick
    cases hr : stageRecv[i]? with
    | none => exact ⟨fun m s hc => by (cases hc), anyPick_legal _, fun _ => anyPick_legal _⟩
    | some r =>
      refine ⟨fun m s hc => ?_, anyPick_legal _, fun _ => anyPick_legal _⟩
      have h1 := hgoodmsg r (List.mem_of_getElem? hr)
      have hc : r = .msg m s := hc
      subst hc
      exact of_decide_eq_true h1
  have hpre : ∀ i ∈ List.range 11, (σ i).stop = false ∧
      (∀ e ∈ evs (σ i).out, e ≠ .bad e.node) ∧
      (∀ o ∈ (σ (i + 1)).out.drop (σ i).out.length, stageAgain i o = true) ∧
      ∀ n ∈ stageView.nodes, ∀ s ∈ holder (σ i).out n, ∃ j ∈ List.range 11, i ≤ j ∧
        stageBack stageRecv[j]? n s = true := by
    decide +kernel
  have h11 : (∀ n ∈ stageView.nodes, holder (σ 11).out n = none) ∧
      ((σ 11).pending 0 = [10] ∧ (σ 11).pending 1 = [11]) ∧
      (∀ e ∈ evs (σ 11).out, e ≠ .bad e.node) ∧ (σ 11).stop = false ∧
      (∀ n ∈ stageView.nodes, stageView.task n = 0 → ¬ Ready stageView (evs (σ 11).out) n) ∧
      ¬ Done (evs (σ 11).out) (stageBlk 0 1) ∧ stageBlk 0 1 ∈ stageView.nodes ∧
      (∀ n ∈ stageView.nodes, stageView.task n ≠ 0 → stageView.task n ≠ 1 → Done (evs (σ 11).out) n) := by
    decide +kernel
  obtain ⟨e1, ⟨e20, e21⟩, e3, e4, e5, e6, e6', e7⟩ := h11
  obtain ⟨ks, hr⟩ := hF.run 11
  have hnb : ∀ n, Ev.bad n ∉ evs (σ 11).out := fun n hn => e3 _ hn rfl
  have hnd : ∀ n, ¬ Dead stageView (evs (σ 11).out) n := fun n hd => hnb n hd.1
  have hx : OrphanExact stageView (evs (σ 11).out) := exact_of_one (fun n _ f f' hd _ _ _ => absurd hd (hnd f))
  have e1' : ∀ n, holder (σ 11).out n = none := by
    intro n
    by_contra hc
    exact hc (e1 n ((hr.inv hok).toSCore.mem hok hc))
  have e5' : ∀ n, stageView.task n = 0 → ¬ Ready stageView (evs (σ 11).out) n :=
    fun n hn hrd => e5 n hrd.1 hn hrd
  have hidle : ∀ i, 11 ≤ i → (stageTick i).recv = .nothing ∧ (stageTick i).late = true := by
    intro i hi
    have : stageRecv[i]? = none := List.getElem?_eq_none (by simpa [stageRecv] using hi)
    unfold stageTick
    rw [this]
    exact ⟨rfl, rfl⟩
  have hstuck : ∀ d, evs (σ (11 + d)).out = evs (σ 11).out ∧ (σ (11 + d)).stop = false ∧
      ∀ x, ((σ (11 + d)).pending x).Perm ((σ 11).pending x) := by
    have hst : ∀ {ks' σ'}, (∀ k ∈ ks', k.recv = .nothing) → SSteps stageView stageConf (σ 11) ks' σ' →
        evs σ'.out = evs (σ 11).out ∧ σ'.stop = false ∧ ∀ x, (σ'.pending x).Perm ((σ 11).pending x) := by
      intro ks' σ' h1 h2
      have h3 := C55_stuck hok hr hx e1' e4 (pre := []) (t := 0) rfl (by simp) (by rw [e20]; decide) e5'
        e6' rfl e6 (hnd _) (fun ⟨f, hf, _⟩ => hnd f hf) h1 h2
      exact ⟨h3.1, h3.2.1, h3.2.2.2⟩
    intro d
    have key : ∃ ks', (∀ k ∈ ks', k.recv = .nothing) ∧
        SSteps stageView stageConf (σ 11) ks' (σ (11 + d)) := by
      induction d with
      | zero => exact ⟨[], by simp, SSteps.nil⟩
      | succ d ih =>
        obtain ⟨ks', h1, h2⟩ := ih
        have h3 := hst h1 h2
        refine ⟨ks' ++ [stageTick (11 + d)], ?_, SSteps.step _ h2 h3.2.1 (hF.good _) (hF.step _ h3.2.1)⟩
        intro x hx
        rcases List.mem_append.1 hx with hx | hx
        · exact h1 x hx
        · rw [List.mem_singleton.1 hx]
          exact (hidle _ (by omega)).1
    obtain ⟨ks', h1, h2⟩ := key
    exact hst h1 h2
  have hcase : ∀ i, i < 11 ∨ ∃ d, i = 11 + d := fun i => by
    by_cases h : i < 11
    · exact Or.inl h
    · exact Or.inr ⟨i - 11, by omega⟩
  have hns : ∀ i, (σ i).stop = false := by
    intro i
    rcases hcase i with h | ⟨d, rfl⟩
    · exact (hpre i (List.mem_range.2 h)).1
    · exact (hstuck d).2.1
  have hback : ∀ j n s, stageBack stageRecv[j]? n s = true → GivesBack (stageTick j) n s := by
    intro j n s hb
    unfold stageTick
    unfold stageBack at hb
    split at hb
    · next m st s' hr =>
      rw [Bool.and_eq_true, beq_iff_eq, beq_iff_eq] at hb
      obtain ⟨rfl, rfl⟩ := hb
      rw [hr]
      exact Or.inl ⟨_, rfl⟩
    · cases hb
  have hfair : Fair stageView σ stageTick := by
    refine ⟨?_, ?_, ?_, ?_⟩
    · intro i n s hh
      obtain ⟨ks', hr'⟩ := hF.run i
      have hI := (hr'.inv hok).toSCore
      rcases hcase i with h | ⟨d, rfl⟩
      · obtain ⟨j, _, h1, h2⟩ := (hpre i (List.mem_range.2 h)).2.2.2 n
          (hI.mem hok (by rw [hh]; simp)) s hh
        exact ⟨j, h1, Or.inr (Or.inl (hback j n s h2))⟩
      · exfalso
        have h1 := (hI.held n).2 (by rw [hh]; simp)
        rw [(hstuck d).1] at h1
        exact ((hr.inv hok).held n).1 h1 (e1' n)
    · intro i t _
      refine ⟨11 + i, by omega, Or.inr ?_⟩
      by_cases ht : t = 0 ∨ t = 1
      · right; right
        intro hc
        have := (hstuck i).2.2 t
        rw [hc] at this
        have := this.nil_eq
        rcases ht with rfl | rfl
        · rw [e20] at this; cases this
        · rw [e21] at this; cases this
      · left
        rw [(hstuck i).1]
        rw [not_or] at ht
        exact fun n hn hnt => Or.inl (e7 n hn (hnt ▸ ht.1) (hnt ▸ ht.2))
    · intro i
      exact ⟨11 + i, by omega, Or.inr (hidle _ (by omega)).1⟩
    · intro i
      exact ⟨11 + i, by omega, Or.inr (hidle _ (by omega)).2⟩
  have hagain : AsksAgain stageView σ stageTick := by
    rintro i n ⟨os, st, ho, hst⟩
    rcases hcase i with h | ⟨d, rfl⟩
    · have h1 := (hpre i (List.mem_range.2 h)).2.2.1 (.release n st) (by rw [ho, List.drop_left]; exact hst)
      obtain ⟨j, hj, h2⟩ := List.any_eq_true.1 h1
      rw [Bool.and_eq_true, decide_eq_true_eq] at h2
      refine ⟨j, h2.1, Or.inr (Or.inr ?_)⟩
      have h3 := h2.2
      unfold stageTick
      split at h3
      · next t s hr =>
        rw [hr]
        exact ⟨s, by rw [show t = stageView.task n from eq_of_beq h3]; rfl⟩
      · cases h3
    · exfalso
      have h1 := (hstuck (d + 1)).1
      rw [← (hstuck d).1, ← Nat.add_assoc, ho] at h1
      have h2 := evs_eq_nil h1
      obtain ⟨ks', hr'⟩ := hF.run (11 + d + 1)
      rcases hr'.status hok n st (by rw [ho]; exact List.mem_append_right _ hst) with rfl | rfl
      · have : Ev.good n ∈ evs os := List.mem_filterMap.2 ⟨_, hst, rfl⟩
        rw [h2] at this
        cases this
      · have : Ev.bad n ∈ evs os := List.mem_filterMap.2 ⟨_, hst, rfl⟩
        rw [h2] at this
        cases this
  refine ⟨[stage0], _, _, stageConf, σ, stageTick, stage_plain, stage_builds, rfl, hF, hfair, hagain, ?_, hns⟩
  intro i n hn
  have hm : Ev.bad n ∈ evs (σ i).out := List.mem_filterMap.2 ⟨_, hn, rfl⟩
  rcases hcase i with h | ⟨d, rfl⟩
  · exact (hpre i (List.mem_range.2 h)).2.1 _ hm rfl
  · rw [(hstuck d).1] at hm
    exact hnb n hm

namespace Ex

theorem two_plain : PlainTasks [stage1] := by
  refine plainTasks_of (L := [stage2, stage1]) (by simp)
    (by simp [stage2, stage1, task1, TTree.requires]) (by simp [stage2, stage1, task1, TTree.id]) ?_ ?_ ?_
  · intro t ht
    simp only [List.mem_cons, List.not_mem_nil, or_false] at ht
    rcases ht with rfl | rfl <;>
      exact ⟨by decide, by decide, by decide, by decide, Or.inl (by decide), by decide⟩
  · intro t ht hr
    simp only [List.mem_cons, List.not_mem_nil, or_false] at ht
    rcases ht with rfl | rfl <;> (unfold TaskInfo.Symmetric; decide)
  · intro t ht hr
    simp only [List.mem_cons, List.not_mem_nil, or_false] at ht
    rcases ht with rfl | rfl
    · exact absurd rfl hr
    · exact ⟨stage2, List.mem_singleton.2 rfl, within_of (by decide),
        Or.inr (by unfold TaskInfo.Divides; decide)⟩

theorem two_builds : Builds [stage1] [stage1, stage2] (pipe [stage1, stage2]) := ⟨by rfl, by rfl, by rfl⟩

noncomputable def twoView : DGraph (Block 1) Nat (Nat × Int) := (pipe [stage1, stage2]).view
def twoConf : SConf Nat := ⟨[1, 2], fun _ => none⟩

/-- Two stages and one worker each: 11 and 12. -/
def twoRecv : List (Server.Recv (Block 1) Nat Nat) :=
  [.msg (.acquire 2) 12, .msg (.release (stageBlk 2 0) .success) 12, .msg (.acquire 1) 11,
    .msg (.release (stageBlk 1 0) .success) 11, .msg (.acquire 1) 11, .nothing, .msg (.acquire 2) 12,
    .msg (.release (stageBlk 2 1) .success) 12, .nothing, .msg (.acquire 2) 12,
    .msg (.release (stageBlk 1 1) .success) 11]

noncomputable def twoTick (i : Nat) : Server.Tick (Block 1) Nat Nat :=
  match twoRecv[i]? with
  | some r => tick (anyPick (stageBlk 1 0)) r
  | none => { tick (anyPick (stageBlk 1 0)) .nothing with late := true }

end Ex

/-- The hypotheses of `C81_two_stages_partial` for the last two stages.  Worker 11 has to wait for its second
block. -/
example : ∃ (σ : Nat → Server (Block 1) Nat (Nat × Int) Nat) (k : Nat → Server.Tick (Block 1) Nat Nat),
    (∀ t, Required [stage1] t → ∀ s ∈ t.requires, s.requires = []) ∧ Forever twoView twoConf σ k ∧
    Fair twoView σ k ∧ AsksAgain twoView σ k ∧ (∀ i n, .release n .failed ∉ (σ i).out) ∧
    (σ 5).pending 1 = [11] ∧ (σ 10).stop = false := by
  have hok : twoView.OK := two_builds.ok two_plain
  let σ := foreverOf twoView twoConf twoTick
  have hgoodmsg : ∀ r ∈ twoRecv, goodRecv twoView twoConf r = true := by decide +kernel
  have hF : Forever twoView twoConf σ twoTick := by
    refine C71_exists hok (fun i => ?_)
    unfold twoTick
    cases hr : twoRecv[i]? with
    | none => exact ⟨fun m s hc => by (cases hc), anyPick_legal _, fun _ => anyPick_legal _⟩
    | some r =>
      refine ⟨fun m s hc => ?_, anyPick_legal _, fun _ => anyPick_legal _⟩
      have h1 := hgoodmsg r (List.mem_of_getElem? hr)
      have hc : r = .msg m s := hc
      subst hc
      exact of_decide_eq_true h1
  have h11 : (σ 11).stop = true ∧ (σ 10).stop = false ∧ (σ 5).pending 1 = [11] ∧
      ∀ i ∈ List.range 12, ∀ e ∈ evs (σ i).out, e ≠ .bad e.node := by decide +kernel
  have hst : ∀ d, σ (11 + d) = σ 11 := by
    intro d
    induction d with
    | zero => rfl
    | succ d ih => rw [← Nat.add_assoc, hF.stopped _ (by rw [ih]; exact h11.1), ih]
  have hst' : ∀ d, (σ (11 + d)).stop = true := fun d => by rw [hst]; exact h11.1
  refine ⟨σ, twoTick, ?_, hF, ⟨?_, ?_, ?_, ?_⟩, ?_, ?_, h11.2.2.1, h11.2.1⟩
  · intro t ht
    have := required_mem (L := [stage2, stage1]) (by simp) (by simp [stage2, stage1, task1, TTree.requires]) ht
    simp only [List.mem_cons, List.not_mem_nil, or_false] at this
    rcases this with rfl | rfl <;> simp [stage2, stage1, task1, TTree.requires]
  · intro i _ _ _; exact ⟨11 + i, by omega, Or.inl (hst' i)⟩
  · intro i _ _; exact ⟨11 + i, by omega, Or.inl (hst' i)⟩
  · intro i; exact ⟨11 + i, by omega, Or.inl (hst' i)⟩
  · intro i; exact ⟨11 + i, by omega, Or.inl (hst' i)⟩
  · intro i _ _; exact ⟨11 + i, by omega, Or.inl (hst' i)⟩
  · intro i n hn
    have hm : Ev.bad n ∈ evs (σ i).out := List.mem_filterMap.2 ⟨_, hn, rfl⟩
    by_cases h : i < 12
    · exact h11.2.2.2 i (List.mem_range.2 h) _ hm rfl
    · obtain ⟨d, rfl⟩ := Nat.exists_eq_add_of_le (show 11 ≤ i by omega)
      rw [hst d] at hm
      exact h11.2.2.2 11 (by simp) _ hm rfl

end Verif
