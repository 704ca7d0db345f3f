import Verif.Proofs.ServerFair
import Verif.Props.ServerProgress

/-! # Termination of the server: C71 -/

set_option linter.unusedSectionVars false

namespace Verif

open Spec

variable {N T K S : Type} [DecidableEq N] [DecidableEq T] [DecidableEq K] [DecidableEq S]
  {g : DGraph N T K} {cfg : SConf T} {σ : Nat → Server N T K S} {k : Nat → Server.Tick N T S}

/-- The full claim: every fair execution of the server stops, and then every block has completed, has failed
permanently or is downstream of a permanently failed block. -/
def C71_statement (g : DGraph N T K) (cfg : SConf T) (S : Type) [DecidableEq S] : Prop :=
  ∀ (σ : Nat → Server N T K S) (k : Nat → Server.Tick N T S), Forever g cfg σ k → Fair g σ k →
    ∃ i, (σ i).stop = true ∧
      ∀ n ∈ g.nodes, Done (evs (σ i).out) n ∨ Dead g (evs (σ i).out) n ∨ Orphan g (evs (σ i).out) n

/-- C71, partial.  The full claim (`C71_statement` for every consistent graph all of whose tasks are served)
has no hypothesis on the order of the tasks and on the orphans and is false (`C71_false`): if
`pending_requests` lists upstream tasks before downstream tasks and the orphan count stays exact, every
fair execution of the server stops; then everything is finished and nobody has a block. -/
theorem C71_stops_partial (hg : g.OK) {trank : T → Nat} (ho : TaskOrder g trank)
    (hserved : cfg.served.Pairwise (fun a b => trank a ≤ trank b)) (hall : ∀ n ∈ g.nodes, g.task n ∈ cfg.served)
    (h : Forever g cfg σ k) (hf : Fair g σ k) (hx : ∀ i, OrphanExact g (evs (σ i).out)) :
    ∃ i, (σ i).stop = true ∧ (∀ n ∈ g.nodes, Done (evs (σ i).out) n ∨ Dead g (evs (σ i).out) n ∨
      Orphan g (evs (σ i).out) n) ∧ ∀ n, holder (σ i).out n = none := by
  obtain ⟨i, hi⟩ := h.stops hg ho hserved hall hf hx
  obtain ⟨ks, hr⟩ := h.run i
  exact ⟨i, hi, (C34_stop_means_finished_partial hg hr (hx i)).1 hi⟩

/-- C71 in full for a single task in which no block has more than two direct upstream blocks. -/
theorem C71_single_task (hg : g.OK) {t : T} (ht : ∀ n ∈ g.nodes, g.task n = t) (hcfg : cfg.served = [t])
    (hup : ∀ n ∈ g.nodes, (g.up n).length ≤ 2) : C71_statement g cfg S := by
  intro σ k h hf
  obtain ⟨i, h1, h2, _⟩ := C71_stops_partial (trank := fun _ => 0) hg
    (fun n hn u hu => Or.inl ((ht u (hg.up_mem n hn u hu)).trans (ht n hn).symm)) (by rw [hcfg]; simp)
    (fun n hn => by rw [hcfg, ht n hn]; simp) h hf (fun _ => exact_of_two hup)
  exact ⟨i, h1, h2⟩

/-- C71: if all goes well (no block ever fails), the order of the tasks is all that is needed, and every block
is completed. -/
theorem C71_no_failures_partial (hg : g.OK) {trank : T → Nat} (ho : TaskOrder g trank)
    (hserved : cfg.served.Pairwise (fun a b => trank a ≤ trank b)) (hall : ∀ n ∈ g.nodes, g.task n ∈ cfg.served)
    (h : Forever g cfg σ k) (hf : Fair g σ k) (hok : ∀ i n, .release n .failed ∉ (σ i).out) :
    ∃ i, (σ i).stop = true ∧ ∀ n ∈ g.nodes, Done (evs (σ i).out) n := by
  have hdead : ∀ i n, ¬ Dead g (evs (σ i).out) n := by
    intro i n hd
    obtain ⟨o, ho, he⟩ := List.mem_filterMap.1 hd.1
    cases o with
    | release m st => cases st <;> cases he; exact hok i n ho
    | _ => cases he
  obtain ⟨i, h1, h2, _⟩ := C71_stops_partial hg ho hserved hall h hf
    (fun i => exact_of_one (fun n _ f f' hf _ _ _ => absurd hf (hdead i f)))
  refine ⟨i, h1, fun n hn => ?_⟩
  rcases h2 n hn with h3 | h3 | ⟨f, h3, _⟩
  · exact h3
  · exact absurd h3 (hdead i n)
  · exact absurd h3 (hdead i f)

/-! ### Executions for given events outside -/

/-- One iteration, if the loop has not stopped. -/
def nextState (g : DGraph N T K) (cfg : SConf T) (σ : Server N T K S) (k : Server.Tick N T S) : Server N T K S :=
  if σ.stop then σ
  else
    match σ.iteration g cfg k with
    | .ok σ' => σ'
    | .error _ => σ

/-- The execution in which `k` happens outside. -/
def foreverOf (g : DGraph N T K) (cfg : SConf T) (k : Nat → Server.Tick N T S) (i : Nat) : Server N T K S :=
  (List.range i).foldl (fun σ j => nextState g cfg σ (k j)) (Server.init g)

theorem foreverOf_succ (k : Nat → Server.Tick N T S) (i : Nat) :
    foreverOf g cfg k (i + 1) = nextState g cfg (foreverOf g cfg k i) (k i) := by
  unfold foreverOf
  rw [List.range_succ, List.foldl_append]
  rfl

/-- Whatever happens outside, the server runs on. -/
theorem C71_exists (hg : g.Loose) (hk : ∀ i, GoodTick g cfg (k i)) : Forever g cfg (foreverOf g cfg k) k := by
  have hrun : ∀ i, ∃ ks, SRun g cfg ks (foreverOf g cfg k i) := by
    intro i
    induction i with
    | zero => exact ⟨[], SRun.init⟩
    | succ i ih =>
      obtain ⟨ks, ih⟩ := ih
      rw [foreverOf_succ]
      unfold nextState
      cases hs : (foreverOf g cfg k i).stop with
      | true => exact ⟨ks, ih⟩
      | false =>
        obtain ⟨σ', he⟩ := C29_never_raises_partial hg ih (hk i)
        rw [he]
        exact ⟨_, SRun.step (k i) ih hs (hk i) he⟩
  refine ⟨rfl, hk, ?_, ?_⟩
  · intro i hs
    rw [foreverOf_succ, nextState, if_pos hs]
  · intro i hs
    obtain ⟨ks, hr⟩ := hrun i
    obtain ⟨σ', he⟩ := C29_never_raises_partial hg hr (hk i)
    rw [foreverOf_succ, nextState, hs, he]
    rfl

namespace Ex

/-- An iteration without messages in which also a second has passed. -/
def idleTick {n : Nat} [NeZero n] {T S : Type} [DecidableEq S] : Server.Tick (Fin n) T S :=
  { tick pickMin .nothing with late := true }

/-- First these messages, then none. -/
def thenIdle {n : Nat} [NeZero n] {T S : Type} [DecidableEq S] (rs : List (Server.Recv (Fin n) T S)) (i : Nat) :
    Server.Tick (Fin n) T S :=
  match rs[i]? with
  | some r => tick pickMin r
  | none => idleTick

theorem thenIdle_good {n : Nat} [NeZero n] {T K S : Type} [DecidableEq T] [DecidableEq K] [DecidableEq S]
    {g : DGraph (Fin n) T K} {cfg : SConf T}
    {rs : List (Server.Recv (Fin n) T S)} (hrs : ∀ r ∈ rs, goodRecv g cfg r = true) (i : Nat) :
    GoodTick g cfg (thenIdle rs i) := by
  unfold thenIdle
  cases hr : rs[i]? with
  | none => exact ⟨fun m s hc => by (cases hc), pickMin_legal, fun _ => pickMin_legal⟩
  | some r =>
    refine ⟨fun m s hc => ?_, pickMin_legal, fun _ => pickMin_legal⟩
    have h1 := hrs r (List.mem_of_getElem? hr)
    have hc : r = .msg m s := hc
    subst hc
    exact of_decide_eq_true h1

/-- The messages of `Ex.threeServe`. -/
def threeRecv : List (Server.Recv (Fin 6) (Fin 3) Nat) :=
  [acq 2 12, ret 0 12, acq 1 11, acq 2 12, ret 2 11, acq 0 10, acq 1 11, ret 4 10, acq 0 10, ret 1 12,
    acq 2 12]

/-- Is this a message with which `s` gives `n` back? -/
def givesBackB (k : Server.Tick (Fin 6) (Fin 3) Nat) (n : Fin 6) (s : Nat) : Bool :=
  match k.recv with
  | .msg (.release m _) s' => m == n && s' == s
  | _ => false

theorem givesBackB_spec {k : Server.Tick (Fin 6) (Fin 3) Nat} {n : Fin 6} {s : Nat} (h : givesBackB k n s = true) :
    GivesBack k n s := by
  unfold givesBackB at h
  split at h
  · next m st s' hr =>
    rw [Bool.and_eq_true, beq_iff_eq, beq_iff_eq] at h
    obtain ⟨rfl, rfl⟩ := h
    exact Or.inl ⟨_, hr⟩
  · cases h

/-- Everything that is held is given back before the messages end. -/
def returnsB (k : Nat → Server.Tick (Fin 6) (Fin 3) Nat) (out : List (Out (Fin 6) (Fin 3) Nat)) (i : Nat)
    (n : Fin 6) : Bool :=
  match holder out n with
  | none => true
  | some s => decide (∃ j ∈ List.range 11, i ≤ j ∧ givesBackB (k j) n s = true)

end Ex

/-- C71 is false: the three stages of `C55_false` with the tasks in the order `run_blockwise` produces.  Every
block that is handed out is given back as a success, all tasks that have workers have a request waiting or
are finished, and there is all the time in the world; but the server never stops. -/
theorem C71_false : ∃ (g : DGraph (Fin 6) (Fin 3) (Fin 6)) (cfg : SConf (Fin 3))
    (σ : Nat → Server (Fin 6) (Fin 3) (Fin 6) Nat) (k : Nat → Server.Tick (Fin 6) (Fin 3) Nat),
    g.OK ∧ (∀ n ∈ g.nodes, g.task n ∈ cfg.served) ∧ Forever g cfg σ k ∧ Fair g σ k ∧
    (∀ i n, ¬ Dead g (evs (σ i).out) n) ∧ (∀ i, (σ i).stop = false) ∧ ¬ C71_statement g cfg Nat := by
  let k := Ex.thenIdle Ex.threeRecv
  let σ := foreverOf Ex.three Ex.threeConf k
  have hF : Forever Ex.three Ex.threeConf σ k :=
    C71_exists Ex.three_ok (Ex.thenIdle_good (by decide))
  have hpre : ∀ i ∈ List.range 11, (σ i).stop = false ∧ (∀ n, ¬ Dead Ex.three (evs (σ i).out) n) ∧
      ∀ n, Ex.returnsB k (σ i).out i n = true := by
    decide +kernel
  have h11 : (∀ n, holder (σ 11).out n = none) ∧
      (∀ t, (σ 11).pending t = if t = 0 then [10] else if t = 1 then [11] else []) ∧
      (∀ n, ¬ Dead Ex.three (evs (σ 11).out) n) ∧ (σ 11).stop = false ∧
      (∀ n, Ex.three.task n = 0 → ¬ Ready Ex.three (evs (σ 11).out) n) ∧ ¬ Done (evs (σ 11).out) 5 ∧
      (∀ n, Ex.three.task n = 2 → Done (evs (σ 11).out) n) := by
    decide +kernel
  obtain ⟨e1, e2, e3, e4, e5, e6, e7⟩ := h11
  obtain ⟨ks, hr⟩ := hF.run 11
  have hidle : ∀ i, 11 ≤ i → k i = Ex.idleTick := by
    intro i hi
    have : Ex.threeRecv[i]? = none := List.getElem?_eq_none (by simpa [Ex.threeRecv] using hi)
    show Ex.thenIdle Ex.threeRecv i = _
    unfold Ex.thenIdle
    rw [this]
  have hstuck : ∀ d, evs (σ (11 + d)).out = evs (σ 11).out ∧ (σ (11 + d)).stop = false ∧
      ∀ x, ((σ (11 + d)).pending x).Perm ((σ 11).pending x) := by
    have key : ∀ d, ∃ ks', (∀ k ∈ ks', k.recv = .nothing) ∧
        SSteps Ex.three Ex.threeConf (σ 11) ks' (σ (11 + d)) := by
      intro d
      induction d with
      | zero => exact ⟨[], by simp, SSteps.nil⟩
      | succ d ih =>
        obtain ⟨ks', h1, h2⟩ := ih
        have h3 := C55_stuck Ex.three_ok hr (exact_of_two (by decide)) e1 e4 (pre := []) (t := 0) rfl (by simp)
          (by rw [e2]; decide) e5 (n := 5) (by decide) rfl e6 (e3 5) (fun ⟨f, hf, _⟩ => e3 f hf) h1 h2
        refine ⟨ks' ++ [k (11 + d)], ?_, SSteps.step _ h2 h3.2.1 (hF.good _) (hF.step _ h3.2.1)⟩
        intro x hx
        rcases List.mem_append.1 hx with hx | hx
        · exact h1 x hx
        · rw [List.mem_singleton.1 hx, hidle _ (by omega)]
          rfl
    intro d
    obtain ⟨ks', h1, h2⟩ := key d
    have h3 := C55_stuck Ex.three_ok hr (exact_of_two (by decide)) e1 e4 (pre := []) (t := 0) rfl (by simp)
      (by rw [e2]; decide) e5 (n := 5) (by decide) rfl e6 (e3 5) (fun ⟨f, hf, _⟩ => e3 f hf) h1 h2
    exact ⟨h3.1, h3.2.1, h3.2.2.2⟩
  have hcase : ∀ i, i < 11 ∨ ∃ d, i = 11 + d := fun i => by
    by_cases h : i < 11
    · exact Or.inl h
    · exact Or.inr ⟨i - 11, by omega⟩
  have hns : ∀ i, (σ i).stop = false := by
    intro i
    rcases hcase i with h | ⟨d, rfl⟩
    · exact (hpre i (List.mem_range.2 h)).1
    · exact (hstuck d).2.1
  have hfair : Fair Ex.three σ k := by
    refine ⟨?_, ?_, ?_, ?_⟩
    · intro i n s hh
      rcases hcase i with h | ⟨d, rfl⟩
      · have := (hpre i (List.mem_range.2 h)).2.2 n
        unfold Ex.returnsB at this
        rw [hh] at this
        obtain ⟨j, _, h1, h2⟩ := of_decide_eq_true this
        exact ⟨j, h1, Or.inr (Or.inl (Ex.givesBackB_spec h2))⟩
      · exfalso
        obtain ⟨ks', hr'⟩ := hF.run (11 + d)
        have h1 := ((hr'.inv Ex.three_ok).held n).2 (by rw [hh]; simp)
        rw [(hstuck d).1] at h1
        exact ((hr.inv Ex.three_ok).held n).1 h1 (e1 n)
    · intro i t _
      refine ⟨11 + i, by omega, Or.inr ?_⟩
      by_cases ht : t = 2
      · subst ht
        left
        rw [(hstuck i).1]
        exact fun n _ hn => Or.inl (e7 n hn)
      · right; right
        intro hc
        have := (hstuck i).2.2 t
        rw [hc] at this
        have := this.nil_eq
        rw [e2] at this
        revert this
        split
        · intro h; cases h
        · split
          · intro h; cases h
          · intro _; omega
    · intro i
      exact ⟨11 + i, by omega, Or.inr (by rw [hidle _ (by omega)]; rfl)⟩
    · intro i
      exact ⟨11 + i, by omega, Or.inr (by rw [hidle _ (by omega)]; rfl)⟩
  refine ⟨Ex.three, Ex.threeConf, σ, k, Ex.three_ok, by decide, hF, hfair, ?_, hns, ?_⟩
  · intro i
    rcases hcase i with h | ⟨d, rfl⟩
    · exact (hpre i (List.mem_range.2 h)).2.1
    · rw [(hstuck d).1]; exact e3
  · intro hc
    obtain ⟨i, hi, _⟩ := hc σ k hF hfair
    rw [hns] at hi
    cases hi

/-- The same messages with the tasks listed the other way, and the two blocks that are then handed out given
back: the server stops. -/
example : ∃ (σ : Nat → Server (Fin 6) (Fin 3) (Fin 6) Nat) (k : Nat → Server.Tick (Fin 6) (Fin 3) Nat),
    Ex.three.OK ∧ TaskOrder Ex.three (fun t => 2 - t.val) ∧
    Ex.threeConf'.served.Pairwise (fun a b => 2 - a.val ≤ 2 - b.val) ∧
    (∀ n ∈ Ex.three.nodes, Ex.three.task n ∈ Ex.threeConf'.served) ∧ Forever Ex.three Ex.threeConf' σ k ∧
    Fair Ex.three σ k ∧ (∀ i, OrphanExact Ex.three (evs (σ i).out)) ∧ (σ 14).stop = false := by
  let k := Ex.thenIdle (Ex.threeRecv ++ [.nothing, ret 3 11, .nothing, ret 5 10])
  let σ := foreverOf Ex.three Ex.threeConf' k
  have hF : Forever Ex.three Ex.threeConf' σ k :=
    C71_exists Ex.three_ok (Ex.thenIdle_good (by decide))
  have h15 : (σ 15).stop = true ∧ (σ 14).stop = false := by decide +kernel
  have hst : ∀ d, (σ (15 + d)).stop = true := by
    intro d
    induction d with
    | zero => exact h15.1
    | succ d ih => rw [← Nat.add_assoc, hF.stopped _ ih]; exact ih
  refine ⟨σ, k, Ex.three_ok, by unfold TaskOrder; decide, by decide, by decide, hF, ⟨?_, ?_, ?_, ?_⟩,
    fun _ => exact_of_two (by decide), h15.2⟩
  · intro i _ _ _; exact ⟨15 + i, by omega, Or.inl (hst i)⟩
  · intro i _ _; exact ⟨15 + i, by omega, Or.inl (hst i)⟩
  · intro i; exact ⟨15 + i, by omega, Or.inl (hst i)⟩
  · intro i; exact ⟨15 + i, by omega, Or.inl (hst i)⟩

end Verif
