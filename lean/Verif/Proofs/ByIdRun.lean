import Verif.Proofs.ById
import Verif.Props.Outcome

/-! # Executions of the scheduler that compares blocks by their ids -/

set_option linter.unusedSectionVars false

namespace Verif.ById

open Spec

variable {N T K : Type} [DecidableEq N] [DecidableEq T] [DecidableEq K] {ig : IdGraph N T K}
  {R : N → N → Prop}

/-- Events of the same kind about objects that stand for the same block. -/
def EvSim (ig : IdGraph N T K) (R : N → N → Prop) (e' e : Ev N) : Prop :=
  evKey ig.g.key e' = evKey ig.g.key e ∧ VerR ig R e'.node e.node

theorem map_evKey {tr' tr : List (Ev N)} (h : List.Forall₂ (EvSim ig R) tr' tr) :
    tr'.map (evKey ig.g.key) = tr.map (evKey ig.g.key) := by
  induction h with
  | nil => rfl
  | cons h _ ih => rw [List.map_cons, List.map_cons, h.1, ih]

theorem skips_sim {l' l : List N} (h : List.Forall₂ (VerR ig R) l' l) :
    List.Forall₂ (EvSim ig R) (l'.map .skip) (l.map .skip) := by
  induction h with
  | nil => exact .nil
  | cons h _ ih => exact .cons ⟨by simp only [evKey, h.1.key], h⟩ ih

theorem acquireEvents_sim {l' l : List N} (h : List.Forall₂ (VerR ig R) l' l) {r' r : Option N}
    (hr : Option.Rel (VerR ig R) r' r) : List.Forall₂ (EvSim ig R) (acquireEvents l' r') (acquireEvents l r) := by
  refine List.rel_append (skips_sim h) ?_
  cases hr with
  | none => exact .nil
  | some h => exact .cons ⟨by simp only [evKey, h.1.key], h⟩ .nil

theorem count_evKey (hg : ig.g.OK) {tr : List (Ev N)} (hn : ∀ e ∈ tr, e.node ∈ ig.g.nodes) {n : N}
    (h : n ∈ ig.g.nodes) : (tr.map (evKey ig.g.key)).count (.hand (ig.g.key n)) = tr.count (.hand n) ∧
      (tr.map (evKey ig.g.key)).count (.good (ig.g.key n)) = tr.count (.good n) ∧
      (tr.map (evKey ig.g.key)).count (.bad (ig.g.key n)) = tr.count (.bad n) := by
  induction tr with
  | nil => exact ⟨rfl, rfl, rfl⟩
  | cons e tr ih =>
    obtain ⟨h1, h2, h3⟩ := ih (fun x hx => hn x (List.mem_cons_of_mem _ hx))
    have he := hn e List.mem_cons_self
    rw [List.map_cons]
    simp only [List.count_cons, h1, h2, h3]
    have key : ∀ m ∈ ig.g.nodes, (ig.g.key m = ig.g.key n ↔ m = n) := fun m hm =>
      ⟨hg.key_inj m hm n h, fun e => by rw [e]⟩
    cases e
    · exact ⟨by simp [evKey], by simp [evKey], by simp [evKey]⟩
    · exact ⟨by simp only [evKey, beq_iff_eq, Ev.hand.injEq]; congr 1; exact if_congr (key _ he) rfl rfl, by simp [evKey], by simp [evKey]⟩
    · exact ⟨by simp [evKey], by simp only [evKey, beq_iff_eq, Ev.good.injEq]; congr 1; exact if_congr (key _ he) rfl rfl, by simp [evKey]⟩
    · exact ⟨by simp [evKey], by simp [evKey], by simp only [evKey, beq_iff_eq, Ev.bad.injEq]; congr 1; exact if_congr (key _ he) rfl rfl⟩

theorem held_key (hg : ig.g.OK) {tr : List (Ev N)} (hn : ∀ e ∈ tr, e.node ∈ ig.g.nodes) {n : N}
    (h : n ∈ ig.g.nodes) : Held (tr.map (evKey ig.g.key)) (ig.g.key n) ↔ Held tr n := by
  unfold Held
  obtain ⟨h1, h2, h3⟩ := count_evKey hg hn h
  rw [h1, h2, h3]

theorem unseen_ver (ht : Total ig) {n' n : N} (hn : n ∈ ig.g.nodes) (h : Unseen ig n' n) : Ver ig n' n :=
  ⟨hn, h.key, h.task, h.up.trans (ht n hn).1, h.down.trans (ht n hn).2⟩

theorem _root_.Verif.Spec.IdRun.mono {ok ok' : N → Prop} (hm : ∀ n, ok n → ok' n) {tr : List (Ev N)} {st : Sched N T K}
    (h : IdRun ig ok tr st) : IdRun ig ok' tr st := by
  induction h with
  | init => exact .init
  | acquire chk t _ he ih => exact .acquire chk t ih he
  | good pick _ hh ho hp he ih => exact .good pick ih hh (hm _ ho) hp he
  | bad pick _ hh ho hp he ih => exact .bad pick ih hh (hm _ ho) hp he

/-- An execution in which the dependency graph does not see the changes is an execution without changes, up to ids. -/
theorem run_sim (hR : ∀ n, R n n) (hg : ig.g.OK) (ht : Total ig) {ok : N → Prop}
    (hok : ∀ n', ok n' → ∃ n ∈ ig.g.nodes, Unseen ig n' n ∧ R n' n) {tr : List (Ev N)} {st : Sched N T K}
    (h : IdRun ig ok tr st) :
    ∃ tr0 st0, Run ig.g tr0 st0 ∧ StSim ig R st st0 ∧ List.Forall₂ (EvSim ig R) tr tr0 := by
  induction h with
  | init => exact ⟨[], _, .init, init_sim hg, .nil⟩
  | @acquire tr st st' skips r chk t _ he ih =>
    obtain ⟨tr0, st0, h1, h2, h3⟩ := ih
    obtain ⟨chk0, h4⟩ := acquireLoop_sim hR hg ht t (ig.g.nodes.length + 1) chk 0 h2 (skips' := []) (skips := []) .nil
    unfold acquireBlock at he
    rw [he] at h4
    rcases hz : Sched.acquireLoop ig.g t (ig.g.nodes.length + 1) chk0 0 st0 [] with e | ⟨s0, r0, q0⟩ <;> rw [hz] at h4
    · exact h4.elim
    · obtain ⟨a, b, c⟩ := h4
      exact ⟨_, _, .acquire chk0 t h1 hz, c, List.rel_append h3 (acquireEvents_sim a b)⟩
  | @good tr st st' n' pick _ hh ho hp he ih =>
    obtain ⟨tr0, st0, h1, h2, h3⟩ := ih
    obtain ⟨n, hn, hu, hr⟩ := hok _ ho
    have hv : VerR ig R n' n := ⟨unseen_ver ht hn hu, hr⟩
    have h4 := release_sim hR hg ht h2 hv .success (pick' := pick) (pick := pick) (.inr rfl)
    rw [he] at h4
    rcases hz : st0.releaseBlock ig.g pick n .success with e | y <;> rw [hz] at h4
    · exact h4.elim
    · have hheld : Held tr0 n := (held_key hg (h1.inv hg).node hn).1 (by rw [← map_evKey h3, ← hu.key]; exact hh)
      exact ⟨_, _, .good pick h1 hheld hp hz, h4, List.rel_append h3 (.cons ⟨by simp only [evKey, hu.key], hv⟩ .nil)⟩
  | @bad tr st st' n' pick _ hh ho hp he ih =>
    obtain ⟨tr0, st0, h1, h2, h3⟩ := ih
    obtain ⟨n, hn, hu, hr⟩ := hok _ ho
    have hv : VerR ig R n' n := ⟨unseen_ver ht hn hu, hr⟩
    have h4 := release_sim hR hg ht h2 hv .failed (pick' := pick) (pick := pick) (.inr rfl)
    rw [he] at h4
    rcases hz : st0.releaseBlock ig.g pick n .failed with e | y <;> rw [hz] at h4
    · exact h4.elim
    · have hheld : Held tr0 n := (held_key hg (h1.inv hg).node hn).1 (by rw [← map_evKey h3, ← hu.key]; exact hh)
      exact ⟨_, _, .bad pick h1 hheld hp hz, h4, List.rel_append h3 (.cons ⟨by simp only [evKey, hu.key], hv⟩ .nil)⟩

end Verif.ById
