import Verif.Spec.ServerSpec
import Verif.Proofs.Bookkeeper
import Verif.Props.StarvedSched

/-! # Invariant of the server -/

set_option linter.unusedSectionVars false

namespace Verif

open Spec

variable {N T K S : Type} [DecidableEq N] [DecidableEq T] [DecidableEq K] [DecidableEq S]
  {g : DGraph N T K} {cfg : SConf T} {σ σ' : Server N T K S}

theorem held_skips {tr : List (Ev N)} {n : N} : ∀ l : List N, Held (tr ++ l.map .skip) n ↔ Held tr n
  | [] => by simp
  | x :: l => by
    have := held_skips (tr := tr ++ [.skip x]) (n := n) l
    rw [held_skip] at this
    simpa using this

theorem held_mem (hg : g.Loose) {tr : List (Ev N)} {st : Sched N T K} (h : Run g tr st) {n : N}
    (hn : Held tr n) : n ∈ g.nodes := by
  have hm : Ev.hand n ∈ tr := by
    rw [← List.count_pos_iff]
    unfold Held at hn
    omega
  obtain ⟨a, b, rfl⟩ := List.append_of_mem hm
  exact ((loose_legal hg h) a (.hand n) b rfl).1

/-- Actions that do not concern the whereabouts of blocks and answer no request. -/
def Silent : Out N T S → Prop
  | .skip _ => False
  | .send _ _ => False
  | .release _ _ => False
  | .shutdown _ _ => False
  | _ => True

theorem evs_append (a b : List (Out N T S)) : evs (a ++ b) = evs a ++ evs b :=
  List.filterMap_append

theorem evs_silent {os : List (Out N T S)} (h : ∀ o ∈ os, Silent o) : evs os = [] := by
  unfold evs
  rw [List.filterMap_eq_nil_iff]
  intro o ho
  have := h o ho
  cases o <;> first | rfl | exact absurd this id

theorem holder_append (a b : List (Out N T S)) (n : N) :
    holder (a ++ b) n = b.foldl (holderStep n) (holder a n) := by
  unfold holder
  rw [List.foldl_append]

theorem fold_silent (n : N) : ∀ (os : List (Out N T S)) (h : Option S), (∀ o ∈ os, Silent o) →
    os.foldl (holderStep n) h = h
  | [], _, _ => rfl
  | o :: os, h, ho => by
    have h1 := ho o List.mem_cons_self
    rw [List.foldl_cons]
    have : holderStep n h o = h := by cases o <;> first | rfl | exact absurd h1 id
    rw [this]
    exact fold_silent n os h (fun o' h' => ho o' (List.mem_cons_of_mem _ h'))

theorem holder_silent {a os : List (Out N T S)} (h : ∀ o ∈ os, Silent o) (n : N) :
    holder (a ++ os) n = holder a n := by rw [holder_append, fold_silent n os _ h]

theorem holder_skips {a : List (Out N T S)} (l : List N) (n : N) :
    holder (a ++ l.map .skip) n = holder a n := by
  rw [holder_append]
  induction l with
  | nil => rfl
  | cons x l ih => exact ih

theorem evs_skips (l : List N) : evs (l.map (.skip : N → Out N T S)) = l.map .skip := by
  unfold evs
  rw [List.filterMap_map]
  induction l with
  | nil => rfl
  | cons x l ih => simpa [toEv] using ih

/-- The two states agree except for silent actions and the sets of announced tasks. -/
structure Frame (σ σ' : Server N T K S) : Prop where
  sched : σ'.sched = σ.sched
  book : σ'.book = σ.book
  pending : σ'.pending = σ.pending
  out : ∃ os, σ'.out = σ.out ++ os ∧ ∀ o ∈ os, Silent o

theorem Frame.refl (σ : Server N T K S) : Frame σ σ := ⟨rfl, rfl, rfl, [], by simp, by simp⟩

theorem Frame.trans {σ₁ σ₂ σ₃ : Server N T K S} (h : Frame σ₁ σ₂) (h' : Frame σ₂ σ₃) : Frame σ₁ σ₃ := by
  obtain ⟨a1, a2, a3, os, a4, a5⟩ := h
  obtain ⟨b1, b2, b3, os', b4, b5⟩ := h'
  refine ⟨b1.trans a1, b2.trans a2, b3.trans a3, os ++ os', ?_, ?_⟩
  · rw [b4, a4, List.append_assoc]
  · intro o ho
    rcases List.mem_append.1 ho with h | h
    · exact a5 o h
    · exact b5 o h

theorem Frame.fold {α : Type} {f : Server N T K S → α → Server N T K S}
    (hf : ∀ σ a, Frame σ (f σ a)) : ∀ (l : List α) (σ : Server N T K S), Frame σ (l.foldl f σ)
  | [], σ => Frame.refl σ
  | a :: l, σ => (hf σ a).trans (Frame.fold hf l (f σ a))

theorem recruit_frame (σ : Server N T K S) : Frame σ (σ.recruit g) := by
  have h := Frame.fold (f := fun (σ : Server N T K S) t =>
    if t ∈ σ.started then σ
    else { (σ.emit [.taskStart t, .callback t]) with started := σ.started ++ [t] }) (by
      intro σ t
      simp only
      split
      · exact Frame.refl σ
      · exact ⟨rfl, rfl, rfl, [.taskStart t, .callback t], rfl, by simp [Silent]⟩)
    (σ.sched.getReadyTasks g) σ
  refine h.trans ⟨rfl, rfl, rfl, [.recruit (σ.sched.getReadyTasks g)], rfl, by simp [Silent]⟩

theorem mem_checked {t : T} : t ∈ Server.checked g ↔ t ∈ g.tasks := by
  rw [Server.checked, List.mem_filter, Sched.stateKeys, List.mem_append, List.mem_filter]
  by_cases h : t ∈ g.rootTasks <;> simp [h]

theorem checkAll_frame (σ : Server N T K S) : Frame σ (σ.checkAll g) := by
  have h := Frame.fold (f := fun (σ : Server N T K S) t =>
    if (σ.sched.states t).isDone then
      if t ∈ σ.finished then σ
      else { (σ.emit [.taskDone t]) with finished := σ.finished ++ [t] }
    else { σ with allDone := false }) (by
      intro σ t
      simp only
      split
      · split
        · exact Frame.refl σ
        · exact ⟨rfl, rfl, rfl, [.taskDone t], rfl, by simp [Silent]⟩
      · exact ⟨rfl, rfl, rfl, [], by simp, by simp⟩)
    (Server.checked g) { σ with allDone := true }
  have h0 : Frame σ { σ with allDone := true } := ⟨rfl, rfl, rfl, [], by simp, by simp⟩
  refine (h0.trans h).trans ?_
  unfold Server.checkAll
  simp only
  split
  · exact ⟨rfl, rfl, rfl, [], by simp, by simp⟩
  · exact Frame.refl _

theorem Frame.evs (h : Frame σ σ') : evs σ'.out = evs σ.out := by
  obtain ⟨os, h1, h2⟩ := h.out
  rw [h1, evs_append, evs_silent h2, List.append_nil]

theorem Frame.holder (h : Frame σ σ') (n : N) : holder σ'.out n = holder σ.out n := by
  obtain ⟨os, h1, h2⟩ := h.out
  rw [h1, holder_silent h2]

/-- The log is a history of the scheduler, and the blocks it considers held are those that were sent
and not released. -/
structure SCore (g : DGraph N T K) (σ : Server N T K S) : Prop where
  run : Run g (evs σ.out) σ.sched
  held : ∀ n, Held (evs σ.out) n ↔ holder σ.out n ≠ none

theorem SCore.frame (h : SCore g σ) (hf : Frame σ σ') : SCore g σ' where
  run := by rw [hf.evs, hf.sched]; exact h.run
  held := by intro n; rw [hf.evs, hf.holder]; exact h.held n

theorem SCore.mem (hg : g.Loose) (h : SCore g σ) {n : N} (hn : holder σ.out n ≠ none) : n ∈ g.nodes :=
  held_mem hg h.run ((h.held n).2 hn)

/-- The bookkeeper's list is the list of who holds what. -/
structure SInv (g : DGraph N T K) (σ : Server N T K S) : Prop extends SCore g σ where
  nodup : (σ.book.map (·.1)).Nodup
  entry : ∀ e ∈ σ.book, e.2.block ∈ g.nodes ∧ e.1 = g.key e.2.block
  book : ∀ n ∈ g.nodes, (σ.book.get (g.key n)).map (·.stream) = holder σ.out n

theorem SInv.frame (h : SInv g σ) (hf : Frame σ σ') : SInv g σ' where
  toSCore := h.toSCore.frame hf
  nodup := by rw [hf.book]; exact h.nodup
  entry := by rw [hf.book]; exact h.entry
  book := by intro n hn; rw [hf.book, hf.holder]; exact h.book n hn

theorem SInv.init : SInv g (Server.init g : Server N T K S) := by
  refine SInv.frame (σ := ⟨Sched.init g, [], [], [], false, false, fun _ => [], []⟩) ?_ (recruit_frame _)
  refine ⟨⟨Run.init, ?_⟩, ?_, ?_, ?_⟩
  · intro n
    simp [holder, Held, evs]
  · simp
  · intro e he; cases he
  · intro n _; simp [Book.get, holder]

theorem release_spec (hg : g.Loose) (h : SCore g σ) {n : N} (hn : holder σ.out n ≠ none)
    {status : BlockStatus} (hs : status = .success ∨ status = .failed) {pick : Nat → Finset N → N}
    (hp : LegalPick pick) :
    ∃ σ', σ.release g pick n status = .ok σ' ∧ SCore g σ' ∧ σ'.book = σ.book ∧
      σ'.pending = σ.pending ∧ (∀ x, holder σ'.out x = if x = n then none else holder σ.out x) ∧
      (∃ os, σ'.out = σ.out ++ .release n status :: os ∧ ∀ o ∈ os, Silent o) ∧
      (∃ st', σ.sched.releaseBlock g pick n status = .ok st' ∧
        σ' = Server.recruit g (Server.checkAll g
          { σ with sched := st', out := σ.out ++ [.release n status, .released (g.task n)] })) := by
  have hh := (h.held n).2 hn
  obtain ⟨⟨s1, e1⟩, ⟨s2, e2⟩⟩ := (C24_loose_partial hg h.run).2 pick n hp hh
  obtain ⟨st', e, hrun, hheld⟩ : ∃ st', σ.sched.releaseBlock g pick n status = .ok st' ∧
      Run g (evs σ.out ++ evs [(.release n status : Out N T S)]) st' ∧
      ∀ x, Held (evs σ.out ++ evs [(.release n status : Out N T S)]) x ↔ Held (evs σ.out) x ∧ x ≠ n := by
    rcases hs with rfl | rfl
    · exact ⟨s1, e1, Run.good pick h.run hh hp e1, fun x => loose_held_good hg h.run x⟩
    · exact ⟨s2, e2, Run.bad pick h.run hh hp e2, fun x => loose_held_bad hg h.run x⟩
  unfold Server.release
  rw [e]
  simp only
  obtain ⟨σ1, hσ1⟩ : ∃ σ1 : Server N T K S, σ1 = ({ σ with sched := st' }).emit
    [.release n status, .released (g.task n)] := ⟨_, rfl⟩
  rw [← hσ1]
  have hf : Frame σ1 ((σ1.checkAll g).recruit g) := (checkAll_frame σ1).trans (recruit_frame _)
  have ho1 : σ1.out = σ.out ++ [.release n status, .released (g.task n)] := by rw [hσ1]; rfl
  have hev : evs σ1.out = evs σ.out ++ evs [(.release n status : Out N T S)] := by
    rw [ho1, evs_append]
    congr 1
  have hho : ∀ x, holder σ1.out x = if x = n then none else holder σ.out x := by
    intro x
    rw [ho1, holder_append]
    simp only [List.foldl_cons, List.foldl_nil, holderStep]
    by_cases hx : x = n
    · subst hx; simp
    · have hx' : ¬ n = x := fun e => hx e.symm
      simp [hx, hx']
  have hc1 : SCore g σ1 := by
    refine ⟨?_, ?_⟩
    · rw [hev, hσ1]; exact hrun
    · intro x
      rw [hev, hheld, hho, h.held]
      by_cases hx : x = n <;> simp [hx]
  refine ⟨_, rfl, hc1.frame hf, ?_, ?_, ?_, ?_, st', rfl, by rw [hσ1]; rfl⟩
  · rw [hf.book, hσ1]; rfl
  · rw [hf.pending, hσ1]; rfl
  · intro x; rw [hf.holder]; exact hho x
  · obtain ⟨os, h1, h2⟩ := hf.out
    refine ⟨.released (g.task n) :: os, ?_, ?_⟩
    · rw [h1, ho1]; simp
    · intro o ho
      rcases List.mem_cons.1 ho with rfl | ho
      · trivial
      · exact h2 o ho

theorem validReturn_iff {b : Book N K S} {k : K} {s : S} :
    b.isValidReturn k s = true ↔ (b.get k).map (·.stream) = some s := by
  unfold Book.isValidReturn
  rcases b.get k with _ | l
  · simp
  · simp

theorem safeRelease_invalid {n : N} {s : S} {status : BlockStatus} {pick : Nat → Finset N → N}
    (h : (σ.book.get (g.key n)).map (·.stream) ≠ some s) :
    σ.safeRelease g pick n status s = .ok σ := by
  unfold Server.safeRelease
  rw [if_neg (fun h' => h (validReturn_iff.1 h'))]

theorem safeRelease_spec (hg : g.Loose) (h : SInv g σ) {n : N} (hn : n ∈ g.nodes) {s : S}
    {status : BlockStatus} (hs : status = .success ∨ status = .failed) {pick : Nat → Finset N → N}
    (hp : LegalPick pick) :
    ∃ σ', σ.safeRelease g pick n status s = .ok σ' ∧ SInv g σ' ∧ σ'.pending = σ.pending ∧
      (if holder σ.out n = some s then
        (∃ os, σ'.out = σ.out ++ .release n status :: os ∧ ∀ o ∈ os, Silent o)
        else σ' = σ) := by
  by_cases hv : holder σ.out n = some s
  · have hb := (h.book n hn).trans hv
    obtain ⟨σ1, r1, r2, r3, r4, r5, r6, _⟩ := release_spec hg h.toSCore
      (n := n) (by rw [hv]; exact Option.some_ne_none s) hs hp
    have hget : ∃ l, σ.book.get (g.key n) = some l ∧ l.stream = s := by
      rw [Option.map_eq_some_iff] at hb
      exact hb
    obtain ⟨l, hl1, hl2⟩ := hget
    unfold Server.safeRelease
    rw [if_pos (validReturn_iff.2 hb), r1]
    simp only
    have hret : σ1.book.notifyReturned (g.key n) s = .ok (σ.book.filter (fun e => e.1 ≠ g.key n)) := by
      unfold Book.notifyReturned
      rw [r3, hl1]
      simp only [hl2, if_true]
      exact Book.del_ok hl1
    rw [hret]
    refine ⟨_, rfl, ?_, r4, ?_⟩
    · refine ⟨⟨r2.run, r2.held⟩, Book.nodup_filter h.nodup, ?_, ?_⟩
      · intro e he
        exact h.entry e (List.mem_of_mem_filter he)
      · intro x hx
        change (Book.get (σ.book.filter (fun e => e.1 ≠ g.key n)) (g.key x)).map _ = holder σ1.out x
        have := Book.get_filter_key (b := σ.book) (k := g.key x) (fun k => decide (k ≠ g.key n))
        rw [this, r5]
        by_cases hxn : x = n
        · subst hxn; simp
        · have : g.key x ≠ g.key n := fun e => hxn (hg.key_inj x hx n hn e)
          simp only [this, hxn, ne_eq, not_false_eq_true, decide_true, if_true, if_false]
          exact h.book x hx
    · rw [if_pos hv]
      exact r6
  · refine ⟨σ, ?_, h, rfl, ?_⟩
    · exact safeRelease_invalid (by rw [h.book n hn]; exact hv)
    · rw [if_neg hv]

/-- What `_handle_acquire_block` does. -/
theorem handleAcquire_spec (hg : g.Loose) (h : SInv g σ) (chk : Nat → N → Check) (now : Int) {t : T} (s : S)
    (ht : t ∈ cfg.served) :
    ∃ σ' skips r, σ.handleAcquire g cfg chk now t s = .ok σ' ∧ SInv g σ' ∧
      σ.sched.acquireBlock g chk t = .ok (skips, r, σ'.sched) ∧
      match r with
      | some n => σ'.out = σ.out ++ skips.map .skip ++ [.send s n, .acquired t] ∧
          σ'.pending = σ.pending ∧ holder σ.out n = none ∧ n ∈ g.nodes ∧ g.task n = t ∧
          ∃ bk, σ' = { σ with
            sched := σ'.sched, book := bk, out := σ.out ++ skips.map .skip ++ [.send s n, .acquired t] }
      | none => (σ'.sched.states t).ready = 0 ∧
          if (σ'.sched.states t).pending = 0 then
            σ'.pending = σ.pending ∧ σ' = Server.recruit g
              { σ with sched := σ'.sched, out := σ.out ++ skips.map .skip ++ [.shutdown s t] }
          else σ'.pending = upd σ.pending t (σ.pending t ++ [s]) ∧ σ'.out = σ.out ++ skips.map .skip ∧
            σ' = { σ with
              sched := σ'.sched, out := σ.out ++ skips.map .skip,
              pending := upd σ.pending t (σ.pending t ++ [s]) } := by
  obtain ⟨skips, r, st', f1, frun, _⟩ := C25_loose hg h.run chk t
  have fleg := loose_legal hg frun
  have fnone := (C26_loose_acquire_none hg h.run f1).1
  unfold Server.handleAcquire
  rw [f1]
  simp only
  have hevs : evs (σ.out ++ skips.map .skip) = evs σ.out ++ skips.map .skip := by
    rw [evs_append, evs_skips]
  rcases r with _ | n
  · have hz := (fnone rfl).1
    have hI : SInv g { σ with sched := st', out := σ.out ++ skips.map .skip } := by
      refine ⟨⟨?_, ?_⟩, h.nodup, h.entry, ?_⟩
      · change Run g (evs (σ.out ++ skips.map .skip)) st'
        rw [hevs]
        simpa [acquireEvents] using frun
      · intro n
        change Held (evs (σ.out ++ skips.map .skip)) n ↔ holder (σ.out ++ skips.map .skip) n ≠ none
        rw [hevs, holder_skips, ← h.held]
        exact held_skips skips
      · intro n hn
        change _ = holder (σ.out ++ skips.map .skip) n
        rw [holder_skips]
        exact h.book n hn
    simp only [hz, ne_eq, not_true_eq_false, if_false]
    by_cases hpend : (st'.states t).pending = 0
    · rw [if_pos hpend]
      obtain ⟨σ1, hσ1⟩ : ∃ σ1 : Server N T K S, σ1 =
        { σ with sched := st', out := σ.out ++ skips.map .skip ++ [.shutdown s t] } := ⟨_, rfl⟩
      change ∃ σ' s' r', Except.ok (Server.recruit g
        { σ with sched := st', out := σ.out ++ skips.map .skip ++ [.shutdown s t] }) = Except.ok σ' ∧ _
      have hI1 : SInv g σ1 := by
        have e1 : evs (σ.out ++ skips.map .skip ++ [.shutdown s t]) = evs (σ.out ++ skips.map .skip) := by
          rw [evs_append _ [_]]
          exact List.append_nil _
        have e2 : ∀ x, holder (σ.out ++ skips.map .skip ++ [.shutdown s t]) x =
            holder (σ.out ++ skips.map .skip) x := by
          intro x; rw [holder_append _ [_]]; rfl
        rw [hσ1]
        refine ⟨⟨?_, ?_⟩, hI.nodup, hI.entry, ?_⟩
        · change Run g (evs (σ.out ++ skips.map .skip ++ [.shutdown s t])) st'
          rw [e1]; exact hI.run
        · intro n
          change Held (evs (σ.out ++ skips.map .skip ++ [.shutdown s t])) n ↔
            holder (σ.out ++ skips.map .skip ++ [.shutdown s t]) n ≠ none
          rw [e1, e2]; exact hI.held n
        · intro n hn
          change _ = holder (σ.out ++ skips.map .skip ++ [.shutdown s t]) n
          rw [e2]; exact hI.book n hn
      have hf : Frame σ1 (Server.recruit g σ1) := recruit_frame σ1
      have hs : (Server.recruit g σ1).sched = st' := by rw [hf.sched, hσ1]
      have hp : (Server.recruit g σ1).pending = σ.pending := by rw [hf.pending, hσ1]
      refine ⟨_, skips, none, rfl, ?_, ?_, ?_⟩
      · rw [← hσ1]; exact hI1.frame hf
      · rw [← hσ1, hs]
      · simp only
        rw [← hσ1, hs]
        exact ⟨hz, by rw [if_pos hpend]; exact ⟨hp, by rw [hσ1]⟩⟩
    · rw [if_neg hpend, if_pos ht]
      refine ⟨_, skips, none, rfl, ?_, rfl, ?_⟩
      · exact ⟨⟨hI.run, hI.held⟩, hI.nodup, hI.entry, hI.book⟩
      · simp only
        refine ⟨hz, ?_⟩
        split
        · rename_i hc; exact absurd hc hpend
        · exact ⟨rfl, rfl, rfl⟩
  · have hready : Ready g (evs σ.out ++ skips.map .skip) n := by
      have := fleg (evs σ.out ++ skips.map .skip) (.hand n) [] (by simp [acquireEvents])
      exact this
    have hnot : ¬ Held (evs σ.out) n := by
      intro hh
      exact hready.2.2.2.2 ((held_skips skips).2 hh)
    have hnone : holder σ.out n = none := by
      by_contra hc
      exact hnot ((h.held n).2 hc)
    have hget : σ.book.get (g.key n) = none := by
      have := h.book n hready.1
      rw [hnone, Option.map_eq_none_iff] at this
      exact this
    have hnS : ((({ σ with sched := st' }).emit (skips.map .skip)).book).notifySent (g.key n) n s now =
        .ok (σ.book ++ [(g.key n, ⟨n, s, now⟩)]) := by
      change σ.book.notifySent (g.key n) n s now = _
      unfold Book.notifySent
      rw [hget]
    simp only
    rw [hnS]
    have htask : g.task n = t := (C15_loose_task hg h.run f1).2.1
    refine ⟨_, skips, some n, rfl, ?_, rfl, ?_⟩
    · refine ⟨⟨?_, ?_⟩, ?_, ?_, ?_⟩
      · change Run g (evs (σ.out ++ skips.map .skip ++ [.send s n, .acquired t])) st'
        have e1 : evs [(.send s n : Out N T S), .acquired t] = [.hand n] := rfl
        rw [evs_append, hevs, e1]
        simpa [acquireEvents] using frun
      · intro x
        change Held (evs (σ.out ++ skips.map .skip ++ [.send s n, .acquired t])) x ↔
          holder (σ.out ++ skips.map .skip ++ [.send s n, .acquired t]) x ≠ none
        rw [evs_append, hevs, holder_append, holder_skips]
        have e1 : evs [(.send s n : Out N T S), .acquired t] = [.hand n] := rfl
        rw [e1]
        simp only [List.foldl_cons, List.foldl_nil, holderStep]
        by_cases hx : x = n
        · subst hx
          have := (C15_loose_task hg h.run f1).2.2
          simp only [acquireEvents, Option.map_some, Option.toList_some] at this
          rw [← List.append_assoc] at this
          simp only [if_true, ne_eq, reduceCtorEq, not_false_eq_true, iff_true]
          exact this
        · have hx' : ¬ n = x := fun e => hx e.symm
          simp only [hx', if_false]
          rw [← h.held, ← held_skips (tr := evs σ.out) skips]
          have hx2 : ¬ x = n := hx
          simp [Held, List.count_append, hx']
      · change ((σ.book ++ [(g.key n, (⟨n, s, now⟩ : BlockLog N S))]).map (·.1)).Nodup
        rw [List.map_append, List.nodup_append]
        refine ⟨h.nodup, by simp, ?_⟩
        intro a ha b hb
        simp only [List.map_cons, List.map_nil, List.mem_singleton] at hb
        subst hb
        rintro rfl
        exact Book.get_none_iff.1 hget ha
      · intro e he
        change e ∈ σ.book ++ [(g.key n, (⟨n, s, now⟩ : BlockLog N S))] at he
        rcases List.mem_append.1 he with he | he
        · exact h.entry e he
        · rw [List.mem_singleton] at he
          subst he
          exact ⟨hready.1, rfl⟩
      · intro x hx
        change (Book.get (σ.book ++ [(g.key n, ⟨n, s, now⟩)]) (g.key x)).map _ =
          holder (σ.out ++ skips.map .skip ++ [.send s n, .acquired t]) x
        rw [Book.get_append_single _ _ hget, holder_append, holder_skips]
        simp only [List.foldl_cons, List.foldl_nil, holderStep]
        by_cases hxn : x = n
        · subst hxn; simp
        · have : g.key x ≠ g.key n := fun e => hxn (hg.key_inj x hx n hready.1 e)
          have hxn' : ¬ n = x := fun e => hxn e.symm
          simp only [this, hxn', if_false]
          exact h.book x hx
    · simp only
      exact ⟨rfl, rfl, hnone, hready.1, htask, _, rfl⟩

/-- The result of handling a message, before the final `checkAll`. -/
theorem handle_ok (hg : g.Loose) (h : SInv g σ) {m : Msg N T} (hm : GoodMsg g cfg m) (s : S)
    (chk : Nat → N → Check) {pick : Nat → Finset N → N} (hp : LegalPick pick) (now : Int) :
    ∃ σ', σ.handle g cfg chk pick now m s = .ok σ' ∧ SInv g σ' := by
  cases m with
  | acquire t =>
    obtain ⟨σ1, skips, r, h1, h2, _⟩ := handleAcquire_spec (cfg := cfg) hg h chk now s hm
    refine ⟨σ1.checkAll g, ?_, h2.frame (checkAll_frame σ1)⟩
    simp only [Server.handle, h1]
  | release n status =>
    obtain ⟨σ1, h1, h2, _⟩ := safeRelease_spec hg h hm.1 (s := s) hm.2 hp
    refine ⟨σ1.checkAll g, ?_, h2.frame (checkAll_frame σ1)⟩
    simp only [Server.handle, h1]
  | blockFailed n w =>
    obtain ⟨σ1, h1, h2, _⟩ := safeRelease_spec hg h (n := n) hm (s := s) (status := .failed) (Or.inr rfl) hp
    have hf : Frame σ1 (σ1.emit [.blockFailure n w]) := ⟨rfl, rfl, rfl, [.blockFailure n w], rfl, by simp [Silent]⟩
    refine ⟨(σ1.emit [.blockFailure n w]).checkAll g, ?_, h2.frame (hf.trans (checkAll_frame _))⟩
    simp only [Server.handle, h1]
  | clientException => exact absurd hm id
  | other => exact absurd hm id

theorem SInv.pending (h : SInv g σ) (p : T → List S) : SInv g { σ with pending := p } :=
  ⟨⟨h.run, h.held⟩, h.nodup, h.entry, h.book⟩

theorem handleMessages_ok (hg : g.Loose) (h : SInv g σ) (r : Server.Recv N T S)
    (hr : ∀ m s, r = .msg m s → GoodMsg g cfg m)
    (chk : Nat → N → Check) {pick : Nat → Finset N → N} (hp : LegalPick pick) (now : Int) :
    ∃ σ', σ.handleMessages g cfg chk pick now r = .ok σ' ∧ SInv g σ' := by
  cases r with
  | msg m s => exact handle_ok hg h (hr m s rfl) s chk hp now
  | closed => exact ⟨σ, rfl, h⟩
  | nothing =>
    unfold Server.handleMessages
    simp only
    split
    · exact ⟨σ, rfl, h⟩
    · rename_i t ht
      split
      · exact ⟨σ, rfl, h⟩
      · exact handle_ok (cfg := cfg) hg (h.pending _) (m := .acquire t) (List.mem_of_find?_eq_some ht) _ chk hp now

/-- The state while lost blocks are being released: the blocks in `L` have left the book but are
still held. -/
structure SLost (g : DGraph N T K) (σ : Server N T K S) (L : List N) : Prop extends SCore g σ where
  nodup : (σ.book.map (·.1)).Nodup
  entry : ∀ e ∈ σ.book, e.2.block ∈ g.nodes ∧ e.1 = g.key e.2.block
  lnodup : L.Nodup
  lost : ∀ n ∈ L, σ.book.get (g.key n) = none ∧ holder σ.out n ≠ none
  book : ∀ n ∈ g.nodes, n ∉ L → (σ.book.get (g.key n)).map (·.stream) = holder σ.out n

theorem releaseLost_ok (hg : g.Loose) {pick : N → Nat → Finset N → N} (hp : ∀ n, LegalPick (pick n)) :
    ∀ (L : List N) (σ : Server N T K S), SLost g σ L →
      ∃ σ' os, Server.releaseLost g pick L σ = .ok σ' ∧ SInv g σ' ∧ σ'.book = σ.book ∧
        σ'.pending = σ.pending ∧ σ'.out = σ.out ++ os ∧
        (∀ o ∈ os, Silent o ∨ ∃ n ∈ L, o = .release n .failed) ∧
        evs os = L.map .bad ∧
        (∀ n status, os.count (.release n status) = if n ∈ L ∧ status = .failed then 1 else 0) ∧
        (∀ x, holder σ'.out x = if x ∈ L then none else holder σ.out x)
  | [], σ, h => by
    refine ⟨σ, [], rfl, ⟨h.toSCore, h.nodup, h.entry, ?_⟩, rfl, rfl, by simp, by simp, rfl, by simp, by simp⟩
    intro n hn
    exact h.book n hn (by simp)
  | n :: L, σ, h => by
    have hn := h.lost n List.mem_cons_self
    obtain ⟨σ1, r1, r2, r3, r4, r5, ⟨os1, r6, r7⟩, _⟩ := release_spec hg h.toSCore hn.2
      (status := .failed) (Or.inr rfl) (hp n)
    have hnd := List.nodup_cons.1 h.lnodup
    have h1 : SLost g σ1 L := by
      refine ⟨r2, by rw [r3]; exact h.nodup, by rw [r3]; exact h.entry, hnd.2, ?_, ?_⟩
      · intro x hx
        have := h.lost x (List.mem_cons_of_mem _ hx)
        rw [r3, r5]
        refine ⟨this.1, ?_⟩
        have hxn : x ≠ n := by rintro rfl; exact hnd.1 hx
        rw [if_neg hxn]
        exact this.2
      · intro x hx hxL
        rw [r3, r5]
        by_cases hxn : x = n
        · subst hxn
          rw [hn.1]; simp
        · rw [if_neg hxn]
          exact h.book x hx (by simp [hxn, hxL])
    obtain ⟨σ', os, s1, s2, s3, s4, s5, s6, s7, s8, s9⟩ := releaseLost_ok hg hp L σ1 h1
    refine ⟨σ', .release n .failed :: os1 ++ os, ?_, s2, by rw [s3, r3], by rw [s4, r4], ?_, ?_, ?_, ?_, ?_⟩
    · unfold Server.releaseLost
      rw [r1]
      exact s1
    · rw [s5, r6]; simp
    · intro o ho
      rw [List.cons_append, List.mem_cons, List.mem_append] at ho
      rcases ho with rfl | ho | ho
      · exact Or.inr ⟨n, List.mem_cons_self, rfl⟩
      · exact Or.inl (r7 o ho)
      · rcases s6 o ho with h | ⟨m, h, e⟩
        · exact Or.inl h
        · exact Or.inr ⟨m, List.mem_cons_of_mem _ h, e⟩
    · have e0 : (.release n .failed :: os1 ++ os : List (Out N T S)) = [.release n .failed] ++ (os1 ++ os) := rfl
      rw [e0, evs_append, evs_append, evs_silent r7, s7]
      rfl
    · intro m status
      have hz : os1.count (.release m status) = 0 := by
        rw [List.count_eq_zero]
        intro hm
        exact r7 _ hm
      rw [List.cons_append, List.count_cons, List.count_append, hz, s8]
      by_cases hmn : n = m
      · subst hmn
        cases status <;> simp [hnd.1]
      · have hmn' : ¬ m = n := fun e => hmn e.symm
        simp [hmn, hmn']
    · intro x
      rw [s9, r5]
      by_cases hx : x = n
      · subst hx; simp
      · by_cases hL : x ∈ L <;> simp [hx, hL]

theorem checkLost_ok (hg : g.Loose) (h : SInv g σ) {pick : N → Nat → Finset N → N}
    (hp : ∀ n, LegalPick (pick n)) (closed : S → Bool) (clock : Nat → Int) :
    ∃ (σ' : Server N T K S) (os : List (Out N T S)) (L : List N), σ.checkLost g pick closed clock = .ok σ' ∧ SInv g σ' ∧
      σ'.book = σ.book.filter (fun e => ! closed e.2.stream) ∧
      σ'.pending = σ.pending ∧ σ'.out = σ.out ++ os ∧
      (∀ o ∈ os, Silent o ∨ ∃ n ∈ L, o = .release n .failed) ∧ evs os = L.map .bad ∧ L.Nodup ∧
      (∀ n, n ∈ L ↔ ∃ s, holder σ.out n = some s ∧ closed s = true) ∧
      (∀ n status, os.count (.release n status) = if n ∈ L ∧ status = .failed then 1 else 0) ∧
      (∀ x, holder σ'.out x = if x ∈ L then none else holder σ.out x) := by
  unfold Server.checkLost
  rw [Book.getLost_none closed clock h.nodup]
  simp only
  obtain ⟨L, hL⟩ : ∃ L, L = (σ.book.filter (fun e => closed e.2.stream)).map (·.2.block) := ⟨_, rfl⟩
  obtain ⟨bk, hbk⟩ : ∃ bk : Book N K S, bk = σ.book.filter (fun e => ! closed e.2.stream) := ⟨_, rfl⟩
  have hmem : ∀ n, n ∈ L ↔ ∃ s, holder σ.out n = some s ∧ closed s = true := by
    intro n
    rw [hL, List.mem_map]
    constructor
    · rintro ⟨e, he, rfl⟩
      obtain ⟨h1, h2⟩ := List.mem_filter.1 he
      obtain ⟨h3, h4⟩ := h.entry e h1
      have := h.book _ h3
      rw [← h4, Book.get_of_mem (k := e.1) (l := e.2) h.nodup h1] at this
      exact ⟨e.2.stream, this.symm, h2⟩
    · rintro ⟨s, h1, h2⟩
      have hn : n ∈ g.nodes := h.toSCore.mem hg (by rw [h1]; exact Option.some_ne_none s)
      have := h.book n hn
      rw [h1, Option.map_eq_some_iff] at this
      obtain ⟨l, h3, h4⟩ := this
      have h5 := Book.get_mem h3
      refine ⟨_, List.mem_filter.2 ⟨h5, by rw [h4]; exact h2⟩, ?_⟩
      obtain ⟨h6, h7⟩ := h.entry _ h5
      exact hg.key_inj _ h6 n hn h7.symm
  have hnd : L.Nodup := by
    rw [hL]
    refine List.Nodup.map_on ?_ (List.Nodup.filter _ h.nodup.of_map)
    intro a ha b hb hab
    have ha' := List.mem_of_mem_filter ha
    have hb' := List.mem_of_mem_filter hb
    refine List.inj_on_of_nodup_map h.nodup ha' hb' ?_
    rw [(h.entry a ha').2, (h.entry b hb').2, hab]
  have hl : SLost g { σ with book := bk } L := by
    refine ⟨⟨h.run, h.held⟩, ?_, ?_, hnd, ?_, ?_⟩
    · rw [hbk]; exact Book.nodup_filter h.nodup
    · intro e he
      rw [hbk] at he
      exact h.entry e (List.mem_of_mem_filter he)
    · intro n hn
      obtain ⟨s, h1, h2⟩ := (hmem n).1 hn
      refine ⟨?_, by rw [h1]; exact Option.some_ne_none s⟩
      have hn' : n ∈ g.nodes := h.toSCore.mem hg (by rw [h1]; exact Option.some_ne_none s)
      have := h.book n hn'
      rw [h1, Option.map_eq_some_iff] at this
      obtain ⟨l, h3, h4⟩ := this
      change bk.get (g.key n) = none
      rw [Book.get_none_iff, hbk]
      intro hm
      obtain ⟨e, he, hk⟩ := List.mem_map.1 hm
      obtain ⟨he1, he2⟩ := List.mem_filter.1 he
      have := List.inj_on_of_nodup_map h.nodup he1 (Book.get_mem h3) hk
      rw [this] at he2
      simp only [h4, h2] at he2
      cases he2
    · intro n hn hnL
      change (bk.get (g.key n)).map _ = holder σ.out n
      rw [← h.book n hn]
      rcases hgn : σ.book.get (g.key n) with _ | l
      · have : bk.get (g.key n) = none := by
          rw [Book.get_none_iff] at hgn ⊢
          intro hm
          apply hgn
          rw [hbk] at hm
          obtain ⟨e, he, hk⟩ := List.mem_map.1 hm
          exact List.mem_map.2 ⟨e, List.mem_of_mem_filter he, hk⟩
        rw [this]
      · have h3 := Book.get_mem hgn
        have h4 := h.book n hn
        rw [hgn] at h4
        have h5 : closed l.stream = false := by
          cases hc : closed l.stream
          · rfl
          · exact absurd ((hmem n).2 ⟨l.stream, h4.symm, hc⟩) hnL
        have h6 : (g.key n, l) ∈ bk := by
          rw [hbk]
          exact List.mem_filter.2 ⟨h3, by simp [h5]⟩
        rw [Book.get_of_mem (by rw [hbk]; exact Book.nodup_filter h.nodup) h6]
  obtain ⟨σ', os, r1, r2, r3, r4, r5, r6, r7, r8, r9⟩ := releaseLost_ok hg hp L _ hl
  rw [← hL, ← hbk]
  exact ⟨σ', os, L, r1, r2, by rw [r3, hbk], r4, r5, r6, r7, hnd, hmem, r8, r9⟩

theorem iteration_ok (hg : g.Loose) (h : SInv g σ) {k : Server.Tick N T S} (hk : GoodTick g cfg k) :
    ∃ σ', σ.iteration g cfg k = .ok σ' ∧ SInv g σ' := by
  obtain ⟨σ1, h1, h2⟩ := handleMessages_ok hg h k.recv hk.1 k.chk hk.2.1 k.now
  obtain ⟨σ2, _, _, h3, h4, _⟩ := checkLost_ok hg h2 hk.2.2 k.closed k.clock
  unfold Server.iteration
  rw [h1]
  simp only
  rw [h3]
  refine ⟨_, rfl, ?_⟩
  split
  · exact h4.frame (checkAll_frame σ2)
  · exact h4

theorem SRun.inv (hg : g.Loose) {ks : List (Server.Tick N T S)} (h : SRun g cfg ks σ) : SInv g σ := by
  induction h with
  | init => exact SInv.init
  | step k _ _ hk he ih =>
    obtain ⟨σ1, h1, h2⟩ := iteration_ok hg ih hk
    rw [h1] at he
    cases he
    exact h2

end Verif
