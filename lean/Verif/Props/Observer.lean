import Verif.Model.Observer

/-! # C76, C79: observers of the server, and reuse of a server -/

namespace Verif

open Observee

variable {O : Type} [DecidableEq O]

/-- An observer that neither registers nor unregisters anybody, and does not raise. -/
def Spec.QuietObs (cb : O → Callback O) (o : O) : Prop := (cb o).ops = [] ∧ (cb o).raises = none

open Spec

/-- The claim: a notification in which no callback raises is delivered exactly once to every observer that is
registered from its beginning to its end. -/
def C76_statement : Prop :=
  ∀ (cb : Nat → Callback Nat) (l : List Nat) (fuel : Nat) (r : Notified Nat), l.Nodup →
    notify cb fuel l 0 [] = some r → r.error = none → ∀ o ∈ l, o ∈ r.observers → r.called.count o = 1

omit [DecidableEq O] in
private theorem get_mid (a b : List O) (o : O) : (a ++ o :: b)[a.length]? = some o := by simp

private theorem notify_quiet (cb : O → Callback O) (rest : List O) (fuel : Nat) : ∀ (b a called : List O),
    (∀ o ∈ b, QuietObs cb o) →
    notify cb (fuel + b.length) (a ++ b ++ rest) a.length called =
      notify cb fuel (a ++ b ++ rest) (a ++ b).length (called ++ b) := by
  intro b
  induction b with
  | nil => intro a called _; simp
  | cons o b ih =>
    intro a called hq
    obtain ⟨h1, h2⟩ := hq o List.mem_cons_self
    have e : fuel + (o :: b).length = (fuel + b.length) + 1 := by simp; omega
    have hget : (a ++ o :: b ++ rest)[a.length]? = some o := by
      rw [List.append_assoc, List.cons_append]
      exact get_mid _ _ _
    rw [e, notify, hget]
    simp only [h1, applyAll, h2]
    have := ih (a ++ [o]) (called ++ [o]) (fun p hp => hq p (List.mem_cons_of_mem _ hp))
    simpa using this

/-- C76, partial.  The full claim (`C76_statement`) is false (`C76_false`): if no callback changes the list of
observers or raises, every observer is called exactly once, in the order of registration. -/
theorem C76_each_once_partial (cb : O → Callback O) (l : List O) (h : ∀ o ∈ l, QuietObs cb o) (fuel : Nat) :
    notify cb (fuel + 1 + l.length) l 0 [] = some ⟨l, l, none⟩ := by
  have := notify_quiet cb [] (fuel + 1) l [] [] h
  simp only [List.nil_append, List.append_nil, List.length_nil] at this
  rw [this, notify]
  simp

/-- C76: an exception of an observer reaches the server, and the observers after it are not called. -/
theorem C76_exception (cb : O → Callback O) (a b : List O) (o : O) (e : PyErr) (h : ∀ p ∈ a, QuietObs cb p)
    (h1 : (cb o).ops = []) (h2 : (cb o).raises = some e) (fuel : Nat) :
    notify cb (fuel + 1 + a.length) (a ++ o :: b) 0 [] = some ⟨a ++ o :: b, a ++ [o], some e⟩ := by
  have := notify_quiet cb (o :: b) (fuel + 1) a [] [] h
  simp only [List.nil_append, List.length_nil] at this
  rw [this, notify, get_mid]
  simp only [h1, applyAll, h2]

/-- A callback that only registers observers. -/
def Spec.OnlyRegisters (cb : O → Callback O) : Prop :=
  ∀ o, (cb o).raises = none ∧ ∀ op ∈ (cb o).ops, ∃ p, op = .register p

private theorem applyAll_register : ∀ (ops : List (ObsOp O)) (l : List O), (∀ op ∈ ops, ∃ p, op = .register p) →
    ∃ l', applyAll ops l = (l ++ l', none) := by
  intro ops
  induction ops with
  | nil => intro l _; exact ⟨[], by simp [applyAll]⟩
  | cons op ops ih =>
    intro l h
    obtain ⟨p, rfl⟩ := h op List.mem_cons_self
    obtain ⟨l', e⟩ := ih (l ++ [p]) (fun op h' => h op (List.mem_cons_of_mem _ h'))
    exact ⟨p :: l', by simpa [applyAll, apply] using e⟩

private theorem notify_register {cb : O → Callback O} (h : OnlyRegisters cb) : ∀ (fuel : Nat) (l : List O) (i : Nat)
    (r : Notified O), i ≤ l.length → notify cb fuel l i (l.take i) = some r →
    r.called = r.observers ∧ r.error = none ∧ l <+: r.observers := by
  intro fuel
  induction fuel with
  | zero => intro l i r _ e; cases e
  | succ fuel ih =>
    intro l i r hi e
    rw [notify] at e
    cases hg : l[i]? with
    | none =>
      rw [hg] at e
      cases e
      have : l.length ≤ i := List.getElem?_eq_none_iff.1 hg
      exact ⟨List.take_of_length_le this, rfl, List.prefix_rfl⟩
    | some o =>
      rw [hg] at e
      obtain ⟨l', hl'⟩ := applyAll_register (cb o).ops l (h o).2
      simp only [hl', (h o).1] at e
      obtain ⟨hlt, ho⟩ := List.getElem?_eq_some_iff.1 hg
      have ht : l.take i ++ [o] = (l ++ l').take (i + 1) := by
        rw [List.take_append_of_le_length (by omega), List.take_add_one, hg]
        rfl
      rw [ht] at e
      obtain ⟨e1, e2, e3⟩ := ih (l ++ l') (i + 1) r (by simp; omega) e
      exact ⟨e1, e2, (List.prefix_append l l').trans e3⟩

/-- C76: observers that are registered during a notification get it too, and nobody is left out: if callbacks only
register observers and the notification ends, it was delivered to the observers that are registered in the end, in
this order, once for each time they are registered. -/
theorem C76_register {cb : O → Callback O} (h : OnlyRegisters cb) (l : List O) (fuel : Nat) {r : Notified O}
    (hr : notify cb fuel l 0 [] = some r) : r.called = r.observers ∧ r.error = none ∧ l <+: r.observers :=
  notify_register h fuel l 0 r (Nat.zero_le _) (by simpa using hr)

/-- C76: it may not end: an observer that registers another one of its kind whenever it is called. -/
theorem C76_endless (fuel : Nat) (o : O) : notify (fun o => ⟨[.register o], none⟩) fuel [o] 0 [] = none := by
  have key : ∀ (fuel : Nat) (l : List O) (i : Nat) (called : List O), i < l.length →
      notify (fun o => ⟨[.register o], none⟩) fuel l i called = none := by
    intro fuel
    induction fuel with
    | zero => intro l i called _; rfl
    | succ fuel ih =>
      intro l i called h
      rw [notify, List.getElem?_eq_getElem h]
      simp only [applyAll, apply]
      exact ih _ _ _ (by simp; omega)
  exact key fuel [o] 0 [] (by simp)

/-- C76: the observer after one that unregisters itself is not called. -/
theorem C76_skips (cb : O → Callback O) (a b : List O) (o p : O) (hnd : (a ++ o :: p :: b).Nodup)
    (ha : ∀ q ∈ a, QuietObs cb q) (hb : ∀ q ∈ b, QuietObs cb q) (ho : (cb o).ops = [.unregister o])
    (hr : (cb o).raises = none) (fuel : Nat) :
    notify cb (fuel + 1 + b.length + 1 + a.length) (a ++ o :: p :: b) 0 [] =
      some ⟨a ++ p :: b, a ++ o :: b, none⟩ ∧ p ∉ a ++ o :: b := by
  have hoa : o ∉ a := by
    intro h
    have := (List.nodup_append.1 hnd).2.2 o h o List.mem_cons_self
    exact this rfl
  constructor
  · have h1 := notify_quiet cb (o :: p :: b) (fuel + 1 + b.length + 1) a [] [] ha
    simp only [List.nil_append, List.length_nil] at h1
    rw [h1, notify, get_mid]
    have he : (a ++ o :: p :: b).erase o = a ++ p :: b := by
      rw [List.erase_append_right _ hoa, List.erase_cons_head]
    have hm : o ∈ a ++ o :: p :: b := by simp
    simp only [ho, applyAll, apply, hm, if_true, he, hr]
    have h2 := notify_quiet cb [] (fuel + 1) b (a ++ [p]) (a ++ [o]) hb
    simp only [List.append_nil, List.length_append, List.length_singleton, List.append_assoc,
      List.singleton_append] at h2
    rw [h2, notify]
    have : (a ++ p :: b)[a.length + (p :: b).length]? = none := by
      rw [List.getElem?_eq_none_iff]; simp
    rw [show (a ++ p :: b)[a.length + (p :: b).length]? = none from this]
  · rw [List.nodup_append] at hnd
    obtain ⟨_, h2, h3⟩ := hnd
    simp only [List.nodup_cons, List.mem_cons, not_or] at h2
    simp only [List.mem_append, List.mem_cons, not_or]
    exact ⟨fun h => h3 p h p (by simp) rfl, fun h => h2.1.1 h.symm, h2.2.1⟩

/-- C76: a callback that unregisters an observer that is not registered raises `ValueError`: the observers after it are
not called. -/
theorem C76_unknown (cb : O → Callback O) (a b : List O) (o p : O) (h : ∀ q ∈ a, QuietObs cb q)
    (ho : (cb o).ops = [.unregister p]) (hp : p ∉ a ++ o :: b) (fuel : Nat) :
    notify cb (fuel + 1 + a.length) (a ++ o :: b) 0 [] = some ⟨a ++ o :: b, a ++ [o], some .valueError⟩ := by
  have := notify_quiet cb (o :: b) (fuel + 1) a [] [] h
  simp only [List.nil_append, List.length_nil] at this
  rw [this, notify, get_mid]
  simp only [ho, applyAll, apply, hp, if_false]

example : notify (fun o : Nat => if o = 0 then ⟨[.unregister 7], none⟩ else ⟨[], none⟩) 4 [0, 1] 0 [] =
    some ⟨[0, 1], [0], some .valueError⟩ := by decide

/-- C76 is false. -/
theorem C76_false : ¬ C76_statement := by
  intro h
  have := h (fun o => if o = 0 then ⟨[.unregister 0], none⟩ else ⟨[], none⟩) [0, 1] 3 ⟨[1], [0], none⟩ (by decide)
    (by decide) rfl 1 (by decide) (by decide)
  revert this
  decide

/-- Two observers, one of which registers a third. -/
example : notify (fun o : Nat => if o = 0 then ⟨[.register 2], none⟩ else ⟨[], none⟩) 4 [0, 1] 0 [] =
    some ⟨[0, 1, 2], [0, 1, 2], none⟩ := by decide

/-! ### C79 -/

section

variable {T : Type} [DecidableEq T]

/-- What happens in the runs of one server, as far as its worker pools are concerned. -/
inductive Spec.PoolsEv (T : Type) where
  | begin (num : T → Nat) (tasks ready : List T)
  | failure (t : T) (id : Nat)
  | finish

/-- All histories of the worker pools of one server. -/
inductive Spec.AllRun (maxF : Nat) : List (PoolsEv T) → AllPools T → Prop where
  | nil : AllRun maxF [] ⟨[], 0⟩
  | begin {es : List (PoolsEv T)} {a : AllPools T} (num : T → Nat) (tasks ready : List T) : AllRun maxF es a →
      AllRun maxF (es ++ [.begin num tasks ready]) (a.begin num tasks ready)
  | failure {es : List (PoolsEv T)} {a a' : AllPools T} (t : T) (id : Nat) : AllRun maxF es a →
      a.failure maxF t id = .ok a' → AllRun maxF (es ++ [.failure t id]) a'
  | finish {es : List (PoolsEv T)} {a : AllPools T} : AllRun maxF es a → AllRun maxF (es ++ [.finish]) a.finish

/-- The claim, first half: when a run of a server ends, no worker is left in any of its pools. -/
def C79_statement_stopped : Prop :=
  ∀ (maxF : Nat) (es : List (PoolsEv Nat)) (a : AllPools Nat), AllRun maxF es a → ∀ t, a.finish.workers t = []

/-- The claim, second half: failures of blocks of the current run are accepted. -/
def C79_statement_accepted : Prop :=
  ∀ (maxF : Nat) (es : List (PoolsEv Nat)) (a : AllPools Nat) (p : Pools Nat) (t id : Nat), AllRun maxF es a →
    a.runs.getLast? = some p → p.get t ≠ none → ∃ a', a.failure maxF t id = .ok a'

omit [DecidableEq T] in
/-- One pool loses all its workers when it is stopped. -/
theorem stopAll_workers (p : Pools T) : ∀ e ∈ p.stopAll.pools, e.2.workers = [] := by
  intro e he
  obtain ⟨e0, _, rfl⟩ := List.mem_map.1 he
  dsimp only
  unfold Pool.setNum
  simp only [Nat.not_lt_zero, if_false, Nat.sub_zero]
  split_ifs with h
  · simp only [Pool.stopN, Pool.lastN]
    split_ifs with h0
    · omega
    · simp only [List.length_map, Nat.sub_self, List.drop_zero]
      rw [List.filter_eq_nil_iff]
      intro w hw
      simp only [List.mem_map, decide_not, Bool.not_eq_true', decide_eq_false_iff_not, not_not]
      exact ⟨w, hw, rfl⟩
  · exact List.length_eq_zero_iff.1 (Nat.eq_zero_of_not_pos h)

private theorem workers_nil {a : AllPools T} (h : ∀ p ∈ a.runs, ∀ e ∈ p.pools, e.2.workers = []) (t : T) :
    a.workers t = [] := by
  unfold AllPools.workers
  rw [List.flatMap_eq_nil_iff]
  intro p hp
  rw [List.flatMap_eq_nil_iff]
  intro e he
  split_ifs
  · exact h p hp e he
  · rfl

private theorem failureLoop_length {maxF : Nat} {t : T} {id : Nat} : ∀ {l r : List (Pools T)} {n n' : Nat},
    AllPools.failureLoop maxF t id l n = .ok (r, n') → r.length = l.length := by
  intro l
  induction l with
  | nil => intro r n n' h; cases h; rfl
  | cons p l ih =>
    intro r n n' h
    simp only [AllPools.failureLoop] at h
    split at h
    · cases h
    · split at h
      · cases h
      · next h2 =>
        cases h
        simp [ih h2]

/-- C79, partial.  The full claim is false (`C79_false_stopped`): if the server was used for one run only, no worker
is left when the run ends. -/
theorem C79_single_partial {maxF : Nat} {es : List (PoolsEv T)} {a : AllPools T} (h : AllRun maxF es a)
    (h1 : es.countP (fun e => match e with | .begin _ _ _ => true | _ => false) = 1) (t : T) :
    a.finish.workers t = [] := by
  have hlen : a.runs.length = es.countP (fun e => match e with | .begin _ _ _ => true | _ => false) := by
    clear h1
    induction h with
    | nil => rfl
    | begin num tasks ready _ ih => simp [AllPools.begin, ih, List.countP_append]
    | failure t id _ hf ih =>
      rw [List.countP_append, ← ih]
      unfold AllPools.failure at hf
      split at hf
      · cases hf
      · next h2 =>
        cases hf
        simp [failureLoop_length h2]
    | @finish es a _ ih =>
      rw [List.countP_append, ← ih]
      unfold AllPools.finish
      split
      · simp
      · next p hp =>
        have : a.runs ≠ [] := by rintro e; rw [e] at hp; cases hp
        have : 0 < a.runs.length := List.length_pos_iff.2 this
        simp
        omega
  rw [h1] at hlen
  obtain ⟨p, hp⟩ := List.length_eq_one_iff.1 hlen
  refine workers_nil ?_ t
  unfold AllPools.finish
  rw [hp]
  intro q hq
  simp only [List.getLast?_singleton, List.dropLast_singleton, List.nil_append, List.mem_singleton] at hq
  rw [hq]
  exact stopAll_workers p

private theorem onBlockFailure_cases (maxF : Nat) (p : Pools T) (t : T) (id : Nat) :
    Pools.onBlockFailure maxF p t id = .error .keyError ∨ ∃ p', Pools.onBlockFailure maxF p t id = .ok p' := by
  unfold Pools.onBlockFailure
  dsimp only
  split
  · cases p.get t with
    | none => exact Or.inl rfl
    | some q => exact Or.inr ⟨_, rfl⟩
  · exact Or.inr ⟨_, rfl⟩

private theorem failureLoop_error (maxF : Nat) (t : T) (id : Nat) : ∀ (l : List (Pools T)) (n : Nat),
    (∃ p ∈ l, p.get t = none ∧ maxF ≤ p.counts t id) → AllPools.failureLoop maxF t id l n = .error .keyError := by
  intro l
  induction l with
  | nil => rintro n ⟨p, hp, _⟩; cases hp
  | cons q l ih =>
    rintro n ⟨p, hp, h1, h2⟩
    simp only [AllPools.failureLoop]
    rcases List.mem_cons.1 hp with rfl | hp
    · have : Pools.onBlockFailure maxF { p with next := n } t id = .error .keyError := by
        unfold Pools.onBlockFailure
        dsimp only
        rw [if_pos (by omega)]
        have : Pools.get { p with next := n } t = none := h1
        rw [this]
      rw [this]
    · rcases onBlockFailure_cases maxF { q with next := n } t id with h | ⟨q', h⟩
      · rw [h]
      · rw [h]
        dsimp only
        rw [ih _ ⟨p, hp, h1, h2⟩]

/-- C79: if a worker of a task that an earlier run did not have has failed `max_block_failures` times, its next
failure makes the server raise `KeyError`. -/
theorem C79_raises (maxF : Nat) (a : AllPools T) (t : T) (id : Nat) {p : Pools T} (hp : p ∈ a.runs)
    (h1 : p.get t = none) (h2 : maxF ≤ p.counts t id) : a.failure maxF t id = .error .keyError := by
  unfold AllPools.failure
  rw [failureLoop_error maxF t id a.runs a.next ⟨p, hp, h1, h2⟩]

private theorem failureLoop_ok (maxF : Nat) (t : T) (id : Nat) : ∀ (l : List (Pools T)) (n : Nat),
    (∀ p ∈ l, p.get t ≠ none) → ∃ r, AllPools.failureLoop maxF t id l n = .ok r := by
  intro l
  induction l with
  | nil => intro n _; exact ⟨_, rfl⟩
  | cons q l ih =>
    intro n h
    simp only [AllPools.failureLoop]
    have h1 : ∃ q', Pools.onBlockFailure maxF { q with next := n } t id = .ok q' := by
      unfold Pools.onBlockFailure
      dsimp only
      split
      · have h2 := h q List.mem_cons_self
        have : Pools.get { q with next := n } t = q.get t := rfl
        rw [this]
        cases hg : q.get t with
        | none => exact absurd hg h2
        | some _ => exact ⟨_, rfl⟩
      · exact ⟨_, rfl⟩
    obtain ⟨q', h1⟩ := h1
    obtain ⟨⟨r, n'⟩, h2⟩ := ih q'.next (fun p hp => h p (List.mem_cons_of_mem _ hp))
    rw [h1]
    dsimp only
    rw [h2]
    exact ⟨_, rfl⟩

/-- C79, partial.  The full claim is false (`C79_false_accepted`): a failure is accepted if all runs of the server had
its task. -/
theorem C79_accepted_partial (maxF : Nat) (a : AllPools T) (t : T) (id : Nat) (h : ∀ p ∈ a.runs, p.get t ≠ none) :
    ∃ a', a.failure maxF t id = .ok a' := by
  obtain ⟨r, hr⟩ := failureLoop_ok maxF t id a.runs a.next h
  unfold AllPools.failure
  rw [hr]
  exact ⟨_, rfl⟩

private theorem put_mem (ws : List Worker) (w : Worker) : w ∈ Pool.put ws w := by
  unfold Pool.put
  split_ifs with h
  · obtain ⟨v, hv, e⟩ := List.any_eq_true.1 h
    exact List.mem_map.2 ⟨v, hv, if_pos (of_decide_eq_true e)⟩
  · simp

private theorem get_mem {p : Pools T} {t : T} {q : Pool} (h : p.get t = some q) : (t, q) ∈ p.pools := by
  obtain ⟨⟨t', q'⟩, h1, rfl⟩ := Option.map_eq_some_iff.1 h
  have h2 := List.find?_some h1
  have : t' = t := of_decide_eq_true h2
  rw [← this]
  exact List.mem_of_find?_eq_some h1

/-- What a restart leaves in a pool. -/
private theorem onBlockFailure_new {maxF : Nat} {p p' : Pools T} {t : T} {id : Nat}
    (h : Pools.onBlockFailure maxF p t id = .ok p') (h2 : maxF ≤ p.counts t id) :
    ∃ q, (t, q) ∈ p'.pools ∧ (⟨p.next, some .running⟩ : Worker) ∈ q.workers := by
  unfold Pools.onBlockFailure at h
  dsimp only at h
  rw [if_pos (by omega)] at h
  cases hg : p.get t with
  | none => rw [hg] at h; cases h
  | some q =>
    rw [hg] at h
    cases h
    refine ⟨((q.stop id).start p.next 1).1, List.mem_map.2 ⟨_, get_mem hg, if_pos rfl⟩, ?_⟩
    simp only [Pool.start, Pool.newWorkers, List.range_one, List.map_cons, List.map_nil, List.foldl_cons,
      List.foldl_nil, Nat.add_zero]
    exact put_mem _ _

private theorem failureLoop_new {maxF : Nat} {t : T} {id : Nat} {p : Pools T} (h2 : maxF ≤ p.counts t id) :
    ∀ {a b r : List (Pools T)} {n n' : Nat}, AllPools.failureLoop maxF t id (a ++ p :: b) n = .ok (r, n') →
      ∃ a' p' b' k, r = a' ++ p' :: b' ∧ a'.length = a.length ∧ b'.length = b.length ∧ n ≤ k ∧
        ∃ q, (t, q) ∈ p'.pools ∧ (⟨k, some .running⟩ : Worker) ∈ q.workers := by
  intro a
  induction a with
  | nil =>
    intro b r n n' h
    simp only [List.nil_append, AllPools.failureLoop] at h
    split at h
    · cases h
    · next p' hp' =>
      split at h
      · cases h
      · next hb =>
        cases h
        exact ⟨[], p', _, n, rfl, rfl, failureLoop_length hb, le_refl _, onBlockFailure_new hp' h2⟩
  | cons q a ih =>
    intro b r n n' h
    simp only [List.cons_append, AllPools.failureLoop] at h
    split at h
    · cases h
    · next q' hq' =>
      split at h
      · cases h
      · next hb =>
        cases h
        obtain ⟨a', p', b', k, e1, e2, e3, e4, e5⟩ := ih hb
        refine ⟨q' :: a', p', b', k, by rw [e1]; rfl, by simp [e2], e3, ?_, e5⟩
        have : n ≤ q'.next := by
          unfold Pools.onBlockFailure at hq'
          dsimp only at hq'
          split at hq'
          · split at hq'
            · cases hq'
            · cases hq'
              simp [Pool.start]
          · cases hq'
            exact le_refl _
        omega

/-- C79: if an earlier run had the task, the next failure starts a worker in the pool of that run, which is still
there when the current run has ended. -/
theorem C79_leaks (maxF : Nat) {a a' : AllPools T} {t : T} {id : Nat} {before after : List (Pools T)} {p : Pools T}
    (hr : a.runs = before ++ p :: after) (hlast : after ≠ []) (h2 : maxF ≤ p.counts t id)
    (h : a.failure maxF t id = .ok a') :
    ∃ k, a.next ≤ k ∧ (⟨k, some .running⟩ : Worker) ∈ a'.finish.workers t := by
  unfold AllPools.failure at h
  rw [hr] at h
  split at h
  · cases h
  · next nx hl =>
    cases h
    obtain ⟨b, p', c, k, e1, _, e3, e4, q, e5, e6⟩ := failureLoop_new h2 hl
    refine ⟨k, e4, ?_⟩
    have hc : c ≠ [] := by
      intro h
      rw [h] at e3
      exact hlast (List.length_eq_zero_iff.1 e3.symm)
    have hd : p' ∈ (AllPools.finish ⟨b ++ p' :: c, nx⟩ : AllPools T).runs := by
      unfold AllPools.finish
      split
      · simp
      · rw [List.dropLast_append_of_ne_nil (by simp), List.dropLast_cons_of_ne_nil hc]
        simp
    rw [e1]
    unfold AllPools.workers
    rw [List.mem_flatMap]
    refine ⟨p', hd, ?_⟩
    rw [List.mem_flatMap]
    exact ⟨_, e5, by simpa using e6⟩

/-- Whether a pool has a running worker of task `t`. -/
private def leftover (a : AllPools Nat) (t : Nat) : Bool := (a.workers t).any (fun w => w.proc = some .running)

private theorem failures_run {maxF : Nat} {t : T} {id : Nat} : ∀ (n : Nat) {es : List (PoolsEv T)} {a a' : AllPools T},
    AllRun maxF es a → AllPools.failures maxF t id n a = .ok a' → ∃ es', AllRun maxF es' a' := by
  intro n
  induction n with
  | zero => intro es a a' h e; cases e; exact ⟨es, h⟩
  | succ n ih =>
    intro es a a' h e
    simp only [AllPools.failures] at e
    split at e
    · cases e
    · next a1 h1 => exact ih (.failure t id h h1) e

/-- The first run has task 0, the second has the tasks `ts`; both start one worker per task. -/
private def twoRuns (ts : List Nat) : AllPools Nat :=
  ((AllPools.begin (fun _ => 1) [0] [0] ⟨[], 0⟩).finish).begin (fun _ => 1) ts ts

private theorem twoRuns_run (maxF : Nat) (ts : List Nat) :
    AllRun maxF [.begin (fun _ => 1) [0] [0], .finish, .begin (fun _ => 1) ts ts] (twoRuns ts) :=
  .begin (es := [.begin (fun _ => 1) [0] [0], .finish]) _ ts ts
    (.finish (es := [.begin (fun _ => 1) [0] [0]]) (.begin (es := []) _ [0] [0] .nil))

/-- C79 is false: the same task is run twice; in the second run its worker, which has id 1, fails four times; a worker
is left behind. -/
theorem C79_false_stopped : ¬ C79_statement_stopped := by
  intro hC
  have hx : (match AllPools.failures 3 0 1 4 (twoRuns [0]) with
      | .ok a => leftover a.finish 0
      | .error _ => false) = true := by decide +kernel
  split at hx
  · next a ha =>
    obtain ⟨es, h⟩ := failures_run 4 (twoRuns_run 3 [0]) ha
    rw [leftover, hC 3 es a h 0] at hx
    cases hx
  · cases hx

/-- C79 is false: another task is run; the fourth failure of its worker makes the server raise. -/
theorem C79_false_accepted : ¬ C79_statement_accepted := by
  intro hC
  have hx : (match AllPools.failures 3 7 1 3 (twoRuns [7]) with
      | .ok a => a.runs.getLast?.any (fun p => (p.get 7).isSome) && (match a.failure 3 7 1 with
        | .ok _ => false
        | .error _ => true)
      | .error _ => false) = true := by decide +kernel
  split at hx
  · next a ha =>
    obtain ⟨es, h⟩ := failures_run 3 (twoRuns_run 3 [7]) ha
    obtain ⟨h1, h2⟩ := Bool.and_eq_true_iff.1 hx
    obtain ⟨p, hp, h3⟩ := (Option.any_eq_true _ _).1 h1
    obtain ⟨a', ha'⟩ := hC 3 es a p 7 1 h hp (by intro hn; rw [hn] at h3; cases h3)
    rw [ha'] at h2
    cases h2
  · cases hx

/-- One run in which a worker is replaced after four failures. -/
example : ∃ (es : List (PoolsEv Nat)) (a : AllPools Nat), AllRun 3 es a ∧ leftover a 0 = true ∧
    (a.workers 0).map (·.id) = [1] := by
  have hx : (match AllPools.failures 3 0 0 4 (AllPools.begin (fun _ => 1) [0] [0] ⟨[], 0⟩) with
      | .ok a => leftover a 0 && decide ((a.workers 0).map (·.id) = [1])
      | .error _ => false) = true := by decide +kernel
  split at hx
  · next a ha =>
    obtain ⟨es, h⟩ := failures_run 4 (.begin (es := []) _ [0] [0] .nil) ha
    obtain ⟨h1, h2⟩ := Bool.and_eq_true_iff.1 hx
    exact ⟨es, a, h, h1, of_decide_eq_true h2⟩
  · cases hx

end

end Verif
