import Verif.Model.NumWorkers
import Verif.Proofs.NumWorkersEnd
import Verif.Proofs.ErrorQueue

/-! # The number of workers: C124 -/

namespace Verif.Props

open Verif Verif.Spec

variable {N T K S : Type} [DecidableEq N] [DecidableEq T] [DecidableEq K] [DecidableEq S]
  {g : DGraph N T K} {c : SysConf T} {P : Sys N T K S → SysEv N T S → Prop} {es : List (SysEv N T S)}
  {x : Sys N T K S} {t : T}

/-- The claim: whatever `num_workers` is, the workers can finish the computation. -/
def C124_statement : Prop :=
  ∀ (N T K : Type) [DecidableEq N] [DecidableEq T] [DecidableEq K] [Nonempty N] (g : DGraph N T K) (c : SysConf T), g.OK →
    c.cfg.served.Nodup → (∀ n ∈ g.nodes, g.task n ∈ c.cfg.served) →
    ∃ (es : List (SysEv N T Nat)) (x : Sys N T K Nat), SysRun g c (OwnWorkers g) es x ∧ x.srv.stop = true

/-- C124: a negative number of workers is the same as none, for every pool. -/
theorem C124_int (p : Pool) (next : Nat) (n : Int) : p.setNumInt next n = p.setNum next n.toNat := by
  unfold Pool.setNumInt Pool.setNum
  simp only
  rcases lt_or_ge n 0 with hn | hn
  · have h0 : n.toNat = 0 := by omega
    rw [h0, if_neg (by omega), if_pos (by omega), if_neg (by omega)]
    have hl : ∀ k, p.workers.length ≤ k → k ≠ 0 → Pool.lastN (p.workers.map (·.id)) k = p.workers.map (·.id) := by
      intro k hk h1
      rw [Pool.lastN, if_neg h1, List.length_map, Nat.sub_eq_zero_of_le hk]
      rfl
    split
    · next h =>
      unfold Pool.stopN
      rw [hl _ (by omega) (by omega), hl _ (by omega) (by omega)]
    · next h =>
      have hw : p.workers = [] := List.eq_nil_of_length_eq_zero (by omega)
      obtain ⟨ws, er⟩ := p
      cases hw
      rfl
  · by_cases h1 : 0 < n - (p.workers.length : Int)
    · rw [if_pos h1, if_pos (by omega)]
      congr 1
      omega
    · rw [if_neg h1]
      by_cases h2 : n - (p.workers.length : Int) < 0
      · rw [if_pos h2, if_neg (by omega), if_pos (by omega)]
        congr 3
        omega
      · rw [if_neg h2, if_neg (by omega), if_neg (by omega)]

/-- A held block was handed out. -/
private theorem was_handed {tr : List (Ev N)} {n : N} (h : Held tr n) : .hand n ∈ tr := by
  unfold Held at h
  exact List.count_pos_iff.1 (by omega)

/-- C124: a task with `num_workers = 0` never has a worker; none of its blocks is ever handed out or skipped, and so
nothing that depends on one of them. -/
theorem C124_none (hg : g.Loose) (hnd : c.cfg.served.Nodup) (hnum : c.num t = 0) (hP : ∀ x e, P x e → OwnWorkers g x e)
    (h : SysRun g c P es x) :
    (∀ id, ¬ Running x.pools t id) ∧
    ∀ n, (g.task n = t ∨ ∃ m, g.task m = t ∧ Anc g m n) → .hand n ∉ evs x.srv.out ∧ ¬ Done (evs x.srv.out) n := by
  have hn := noWorkers hg hnd hnum hP h
  refine ⟨?_, ?_⟩
  · rintro id ⟨p, hm, w, hw, _⟩
    exact hn.pool ⟨p, hm, fun e => by rw [e] at hw; cases hw⟩
  obtain ⟨ks, hks⟩ := h.srun
  have hl := (loose_legal hg (hks.inv hg).run)
  have hdone : ∀ m, g.task m = t → ∀ pre : List (Ev N), pre <+: evs x.srv.out → ¬ Done pre m := by
    intro m hm pre hpre hd
    rcases hd with hd | hd <;> exact hn.log _ (hpre.subset hd) hm
  have hev : ∀ n, (g.task n = t ∨ ∃ m, g.task m = t ∧ Anc g m n) → ∀ e ∈ evs x.srv.out, e.node = n →
      ∀ n', (e = .hand n' ∨ e = .skip n') → False := by
    rintro n hn' e he rfl n' hc
    rcases hn' with hn' | ⟨m, hm, ha⟩
    · exact hn.log e he hn'
    · obtain ⟨pre, post, htr⟩ := List.append_of_mem he
      have hpre : pre <+: evs x.srv.out := ⟨e :: post, htr.symm⟩
      have hr : Ready g pre e.node := by
        rcases hc with rfl | rfl
        · exact hl pre _ post htr
        · exact hl pre _ post htr
      exact hdone m hm pre hpre (legal_anc_done (legal_prefix hl htr) hr.2.1 ha)
  intro n hn'
  have hh : .hand n ∉ evs x.srv.out := fun hc => hev n hn' _ hc rfl n (Or.inl rfl)
  refine ⟨hh, ?_⟩
  rintro (hc | hc)
  · obtain ⟨pre, post, htr⟩ := List.append_of_mem hc
    have hheld : Held pre n := hl pre _ post htr
    exact hh (htr ▸ List.mem_append_left _ (was_handed hheld))
  · exact hev n hn' _ hc rfl n (Or.inr rfl)

/-- C124: so if such a task has a block that is not downstream of a block that has failed for good, the server does not
stop. -/
theorem C124_stuck_partial (hg : g.Loose) (hnd : c.cfg.served.Nodup) (hnum : c.num t = 0)
    (hP : ∀ x e, P x e → OwnWorkers g x e) (h : SysRun g c P es x) (hx : OrphanExact g (evs x.srv.out)) {n : N}
    (hn : n ∈ g.nodes) (ht : g.task n = t) (ho : ¬ Orphan g (evs x.srv.out) n) : x.srv.stop = false := by
  obtain ⟨ks, hks⟩ := h.srun
  have hl := (loose_legal hg (hks.inv hg).run)
  cases hs : x.srv.stop with
  | false => rfl
  | true =>
    exfalso
    obtain ⟨_, h2⟩ := C124_none hg hnd hnum hP h
    obtain ⟨h3, h4⟩ := h2 n (Or.inl ht)
    rcases ((C34_stop_means_finished_partial hg hks hx).1 hs).1 n hn with h5 | h5 | h5
    · exact h4 h5
    · obtain ⟨pre, post, htr⟩ := List.append_of_mem h5.1
      have hheld : Held pre n := hl pre _ post htr
      exact h3 (htr ▸ List.mem_append_left _ (was_handed hheld))
    · exact ho h5

/-- C124, partial.  The full claim has no condition on `num_workers` and is false (`C124_false`): the workers can finish
the computation without a failure exactly if every task that has blocks has at least one worker. -/
theorem C124_exactly_partial [Nonempty N] [Nonempty S] (hg : g.OK) (hnd : c.cfg.served.Nodup)
    (hserved : ∀ n ∈ g.nodes, g.task n ∈ c.cfg.served) :
    (∃ (es : List (SysEv N T S)) (x : Sys N T K S), SysRun g c (OwnWorkers g) es x ∧ x.srv.stop = true ∧
      ∀ n, .bad n ∉ evs x.srv.out) ↔ ∀ n ∈ g.nodes, 0 < c.num (g.task n) := by
  constructor
  · rintro ⟨es, x, h, hs, hb⟩ n hn
    by_contra hc
    have := C124_stuck_partial hg hnd (t := g.task n) (by omega) (fun _ _ h => h) h
      (exact_of_one (fun n _ f f' hf _ _ _ => absurd hf.1 (hb f))) hn rfl (fun ⟨f, hf, _⟩ => hb f hf.1)
    rw [hs] at this
    cases this
  · intro hnum
    classical
    let pick : Nat → Finset N → N := fun _ s => if h : s.Nonempty then h.choose else Classical.arbitrary N
    have hp : LegalPick pick := by
      intro i s hs
      show (if h : s.Nonempty then h.choose else Classical.arbitrary N) ∈ s
      rw [dif_pos hs]
      exact hs.choose_spec
    obtain ⟨x, hx⟩ := C68_start (S := S) g c
    have hevs : evs x.srv.out = [] ∧ Resting x := by
      unfold Sys.init at hx
      dsimp only at hx
      split at hx
      · cases hx
      · cases hx
        have hf := recruit_frame (g := g) (⟨Sched.init g, [], [], [], false, false, fun _ => [], []⟩ : Server N T K S)
        exact ⟨hf.evs, rfl, rfl, rfl, fun t => congrFun hf.pending t⟩
    obtain ⟨es, y, h1, h2, h3⟩ := workers_finish hg hnd hserved hnum (Classical.arbitrary S) hp _ [] x (.init hx) hevs.2
      (by rw [hevs.1]; simp [Held]) (by rw [hevs.1]; simp) (by rw [hevs.1]; simp) (le_refl _)
    exact ⟨es, y, sysRun_mono h1 (fun _ _ h => h.1), h2, h3⟩

/-- C124 is false: one block, `num_workers = 0`. -/
theorem C124_false : ¬ C124_statement := by
  intro hC
  obtain ⟨es, x, h, hs⟩ := hC _ _ _ Ex.one ⟨⟨[0], fun _ => none⟩, fun _ => 0, 3⟩ Ex.one_ok (by decide) (by decide)
  have hb : ∀ n, .bad n ∉ evs x.srv.out := by
    intro n hc
    have hn := noWorkers Ex.one_ok (by decide) (t := 0) rfl (fun _ _ h => h) h
    exact hn.log _ hc (Subsingleton.elim _ _)
  have := (C124_exactly_partial (S := Nat) (c := ⟨⟨[0], fun _ => none⟩, fun _ => 0, 3⟩) Ex.one_ok (by decide)
    (by decide)).1 ⟨es, x, h, hs, hb⟩ 0 (by decide)
  cases this

/-- With one worker it works. -/
example : ∃ (es : List (SysEv (Fin 1) (Fin 1) Nat)) (x : Sys (Fin 1) (Fin 1) (Fin 1) Nat),
    SysRun Ex.one Ex.oneConf (OwnWorkers Ex.one) es x ∧ x.srv.stop = true ∧ ∀ n, .bad n ∉ evs x.srv.out :=
  (C124_exactly_partial Ex.one_ok (by decide) (by decide)).2 (by decide)

/-- A pipeline of two blocks whose task has no workers: there are executions, and the server does not stop. -/
example : ∃ (es : List (SysEv (Fin 2) (Fin 1) Nat)) (x : Sys (Fin 2) (Fin 1) (Fin 2) Nat),
    SysRun Ex.line ⟨Ex.lineConf.cfg, fun _ => 0, 3⟩ (OwnWorkers Ex.line) es x ∧ es.length = 2 ∧ x.srv.stop = false := by
  have hx : (sysExec Ex.line ⟨Ex.lineConf.cfg, fun _ => 0, 3⟩ (fun _ e => match e with | .arrive _ _ => false | _ => true)
      (([.loop [] [], .loop [] []] : List (SimpleEv (Fin 2) (Fin 1) Nat)).map SimpleEv.ev)).map
      (fun r => decide (r.1.srv.stop = false)) = some true := by decide +kernel
  obtain ⟨x, _, h, _, e⟩ := sysExec_run (P := OwnWorkers Ex.line) (by
    intro x e h
    cases e with
    | arrive m s => cases h
    | _ => trivial) (simple_legal _) _ hx
  exact ⟨_, x, h, rfl, of_decide_eq_true e⟩

/-- `num_workers = -2`: the workers that are there are stopped. -/
example : (⟨[⟨0, some .running⟩, ⟨1, some .running⟩], []⟩ : Pool).setNumInt 5 (-2) =
    (⟨[⟨0, some .running⟩, ⟨1, some .running⟩], []⟩ : Pool).setNum 5 0 := C124_int _ _ _

end Verif.Props
