import Verif.Spec.ServerThreads
import Verif.Proofs.Strangers

/-! # Steps of the IO loop between the statements of the server -/

set_option linter.unusedSectionVars false

namespace Verif

open Spec

variable {N T K S : Type} [DecidableEq N] [DecidableEq T] [DecidableEq K] [DecidableEq S]
  {g : DGraph N T K} {cfg : SConf T} {x y : FineSrv N T K S}

namespace FineSrv

theorem ioRun_append (x : FineSrv N T K S) (es es' : List (SrvIo N T S)) :
    x.ioRun (es ++ es') = (x.ioRun es).ioRun es' := List.foldl_append

theorem ioStep_srv (x : FineSrv N T K S) (e : SrvIo N T S) : (x.ioStep e).srv = x.srv := by
  cases e <;> simp only [ioStep, setLink] <;> split <;> (try split) <;> rfl

theorem ioRun_srv (es : List (SrvIo N T S)) (x : FineSrv N T K S) : (x.ioRun es).srv = x.srv := by
  induction es generalizing x with
  | nil => rfl
  | cons e es ih => exact (ih (x.ioStep e)).trans (ioStep_srv x e)

/-- What a step does to the link of its stream. -/
def linkStep (l : Link) : SrvIo N T S → Link
  | .arrive _ _ => l
  | .dies _ => { l with dead := true }
  | .lost _ => if l.pc = .reading ∧ (l.dead = true ∨ l.inner = false) then
      { l with inner := false, pc := .raising .closed } else l
  | .half _ => if l.pc = .reading ∧ l.inner = false then { l with pc := .raising (.other .attributeError) } else l
  | .bad _ e => if l.pc = .reading then { l with pc := .raising (.other e) } else l
  | .bye _ => if l.pc = .reading then
      if l.inner then { l with pc := .over } else { l with pc := .raising .closed } else l
  | .writeFails _ => if l.dead then { l with inner := false } else l
  | .put _ => match l.pc with | .raising _ => { l with pc := .over } | _ => l

theorem ioStep_links (x : FineSrv N T K S) (e : SrvIo N T S) :
    (x.ioStep e).links = upd x.links (streamOf e) (linkStep (x.links (streamOf e)) e) := by
  have hid : ∀ s, upd x.links s (x.links s) = x.links := by
    intro s
    funext s'
    unfold upd
    split
    · rename_i h; rw [h]
    · rfl
  cases e with
  | arrive m s =>
    change (ioStep x (.arrive m s)).links = upd x.links s (x.links s)
    rw [hid]
    simp only [ioStep]
    split <;> rfl
  | dies s => rfl
  | lost s =>
    change _ = upd x.links s (linkStep (x.links s) (.lost s : SrvIo N T S))
    simp only [ioStep, linkStep]
    split
    · rfl
    · rw [hid]
  | half s =>
    change _ = upd x.links s (linkStep (x.links s) (.half s : SrvIo N T S))
    simp only [ioStep, linkStep]
    split
    · rfl
    · rw [hid]
  | bad s e =>
    change _ = upd x.links s (linkStep (x.links s) (.bad s e : SrvIo N T S))
    simp only [ioStep, linkStep]
    split
    · rfl
    · rw [hid]
  | bye s =>
    change _ = upd x.links s (linkStep (x.links s) (.bye s : SrvIo N T S))
    simp only [ioStep, linkStep]
    split
    · split <;> rfl
    · rw [hid]
  | writeFails s =>
    change _ = upd x.links s (linkStep (x.links s) (.writeFails s : SrvIo N T S))
    simp only [ioStep, linkStep]
    split
    · rfl
    · rw [hid]
  | put s =>
    change _ = upd x.links s (linkStep (x.links s) (.put s : SrvIo N T S))
    simp only [ioStep, linkStep]
    rcases hpc : (x.links s).pc with _ | e | _
    · exact (hid s).symm
    · rfl
    · exact (hid s).symm

theorem ioRun_links_congr (es : List (SrvIo N T S)) {x y : FineSrv N T K S} (h : x.links = y.links) :
    (x.ioRun es).links = (y.ioRun es).links := by
  induction es generalizing x y with
  | nil => exact h
  | cons e es ih =>
    refine ih (x := x.ioStep e) (y := y.ioStep e) ?_
    rw [ioStep_links, ioStep_links, h]

theorem linkStep_inner (l : Link) (e : SrvIo N T S) (h : l.inner = false) : (linkStep l e).inner = false := by
  cases e <;> simp only [linkStep] <;> (try split) <;> (try split) <;> (first | exact h | rfl)

theorem linkStep_dead (l : Link) (e : SrvIo N T S) (h : l.dead = true) : (linkStep l e).dead = true := by
  cases e <;> simp only [linkStep] <;> (try split) <;> (try split) <;> exact h

theorem links_mono {P : Link → Prop} (hP : ∀ l (e : SrvIo N T S), P l → P (linkStep l e)) (es : List (SrvIo N T S))
    {x : FineSrv N T K S} {s : S} (h : P (x.links s)) : P ((x.ioRun es).links s) := by
  induction es generalizing x with
  | nil => exact h
  | cons e es ih =>
    refine ih (x := x.ioStep e) ?_
    rw [ioStep_links]
    unfold upd
    split
    · rename_i hs
      rw [← hs]
      exact hP _ _ h
    · exact h

theorem inner_mono (es : List (SrvIo N T S)) {x : FineSrv N T K S} {s : S} (h : (x.links s).inner = false) :
    ((x.ioRun es).links s).inner = false :=
  links_mono (P := fun l => l.inner = false) (fun l e => linkStep_inner l e) es h

theorem dead_mono (es : List (SrvIo N T S)) {x : FineSrv N T K S} {s : S} (h : (x.links s).dead = true) :
    ((x.ioRun es).links s).dead = true :=
  links_mono (P := fun l => l.dead = true) (fun l e => linkStep_dead l e) es h

theorem shut_mono (es : List (SrvIo N T S)) {x : FineSrv N T K S} {s : S} (h : Shut (x.links s)) :
    Shut ((x.ioRun es).links s) :=
  links_mono (P := Shut) (fun l e h => h.elim (fun h => Or.inl (linkStep_inner l e h))
    (fun h => Or.inr (linkStep_dead l e h))) es h

/-- The steps only add to the queue. -/
theorem ioStep_queue (x : FineSrv N T K S) (e : SrvIo N T S) : ∃ q, (x.ioStep e).queue = x.queue ++ q ∧
    ∀ p ∈ q, e = .arrive p.1 p.2 := by
  cases e with
  | arrive m s =>
    simp only [ioStep]
    split
    · exact ⟨[(m, s)], rfl, by intro p hp; rw [List.mem_singleton] at hp; subst hp; rfl⟩
    · exact ⟨[], (List.append_nil _).symm, by intro p hp; cases hp⟩
  | _ =>
    refine ⟨[], ?_, by intro p hp; cases hp⟩
    simp only [ioStep, setLink, List.append_nil] <;> (try split) <;> (try split) <;> rfl

theorem ioRun_queue (es : List (SrvIo N T S)) (x : FineSrv N T K S) : ∃ q, (x.ioRun es).queue = x.queue ++ q ∧
    ∀ p ∈ q, .arrive p.1 p.2 ∈ es := by
  induction es generalizing x with
  | nil => exact ⟨[], (List.append_nil _).symm, by intro p hp; cases hp⟩
  | cons e es ih =>
    obtain ⟨q, h1, h2⟩ := ioStep_queue x e
    obtain ⟨q', h3, h4⟩ := ih (x.ioStep e)
    refine ⟨q ++ q', ?_, ?_⟩
    · change ((x.ioStep e).ioRun es).queue = _
      rw [h3, h1, List.append_assoc]
    · intro p hp
      rcases List.mem_append.1 hp with hp | hp
      · rw [h2 p hp]; exact List.mem_cons_self
      · exact List.mem_cons_of_mem _ (h4 p hp)

/-- The result of `closed`: exactly when it raises, and the answer is right. -/
theorem isClosed_spec (x : FineSrv N T K S) (s : S) (l : Look N T S) :
    (((x.ioRun l.a).links s).inner = true ∧ ((x.ioRun (l.a ++ l.b)).links s).inner = false →
      x.isClosed s l = .error .attributeError) ∧
    (¬ (((x.ioRun l.a).links s).inner = true ∧ ((x.ioRun (l.a ++ l.b)).links s).inner = false) →
      ∃ c, x.isClosed s l = .ok (c, x.ioRun (Look.all l)) ∧ (c = true → Shut ((x.ioRun (Look.all l)).links s)) ∧
        (Shut (x.links s) → c = true)) := by
  have hall : x.ioRun (Look.all l) = ((x.ioRun l.a).ioRun l.b).ioRun l.c := by
    unfold Look.all
    rw [ioRun_append, ioRun_append]
  rw [ioRun_append, hall]
  unfold isClosed
  simp only
  rcases h1 : ((x.ioRun l.a).links s).inner with _ | _
  · refine ⟨fun h => absurd h.1 (by simp), fun _ => ⟨true, ?_, ?_, fun _ => rfl⟩⟩
    · rw [if_pos rfl]
    · exact fun _ => Or.inl (inner_mono _ (inner_mono _ h1))
  · rw [if_neg (by simp)]
    rcases h2 : (((x.ioRun l.a).ioRun l.b).links s).inner with _ | _
    · refine ⟨fun _ => by rw [if_pos rfl], fun h => absurd ⟨rfl, rfl⟩ h⟩
    · refine ⟨fun h => absurd h.2 (by simp), fun _ => ⟨_, by rw [if_neg (by simp)], fun h => Or.inr h, ?_⟩⟩
      rintro (h | h)
      · have := inner_mono l.a h
        rw [h1] at this
        cases this
      · exact dead_mono _ (dead_mono _ (dead_mono _ h))

/-! ## Order of steps -/

/-- What a step adds to the queue of messages. -/
def addQueue (l : Link) : SrvIo N T S → List (Msg N T × S)
  | .arrive m s => if l.pc = .reading then [(m, s)] else []
  | _ => []

/-- What a step adds to the queue of exceptions. -/
def addExcs (l : Link) : SrvIo N T S → List TcpExc
  | .put _ => match l.pc with | .raising e => [e] | _ => []
  | _ => []

theorem ioStep_add (x : FineSrv N T K S) (e : SrvIo N T S) :
    (x.ioStep e).queue = x.queue ++ addQueue (x.links (streamOf e)) e ∧
    (x.ioStep e).excs = x.excs ++ addExcs (x.links (streamOf e)) e := by
  cases e with
  | arrive m s =>
    change (ioStep x (.arrive m s)).queue = x.queue ++ addQueue (x.links s) (.arrive m s) ∧
      (ioStep x (.arrive m s)).excs = x.excs ++ []
    simp only [ioStep, addQueue, List.append_nil]
    split
    · exact ⟨rfl, rfl⟩
    · exact ⟨(List.append_nil _).symm, rfl⟩
  | put s =>
    change (ioStep x (.put s)).queue = x.queue ++ [] ∧
      (ioStep x (.put s)).excs = x.excs ++ addExcs (x.links s) (.put s : SrvIo N T S)
    simp only [ioStep, addExcs]
    rcases (x.links s).pc with _ | e | _
    · exact ⟨(List.append_nil _).symm, (List.append_nil _).symm⟩
    · exact ⟨(List.append_nil _).symm, rfl⟩
    · exact ⟨(List.append_nil _).symm, (List.append_nil _).symm⟩
  | _ =>
    refine ⟨(?_ : _ = _ ++ []), (?_ : _ = _ ++ [])⟩ <;>
    · rw [List.append_nil]
      simp only [ioStep, setLink] <;> (try split) <;> (try split) <;> rfl

theorem ext' {x y : FineSrv N T K S} (h1 : x.srv = y.srv) (h2 : x.queue = y.queue) (h3 : x.excs = y.excs)
    (h4 : x.links = y.links) : x = y := by
  cases x
  cases y
  cases h1
  cases h2
  cases h3
  cases h4
  rfl

theorem ioStep_other (x : FineSrv N T K S) {e : SrvIo N T S} {s : S} (h : streamOf e ≠ s) :
    (x.ioStep e).links s = x.links s := by
  rw [ioStep_links]
  unfold upd
  rw [if_neg (Ne.symm h)]

/-- A step of one stream that adds nothing to the queues can be exchanged with a step of another stream. -/
theorem ioStep_comm (x : FineSrv N T K S) {e e' : SrvIo N T S} (h : streamOf e ≠ streamOf e')
    (h1 : addQueue (x.links (streamOf e')) e' = []) (h2 : addExcs (x.links (streamOf e')) e' = []) :
    (x.ioStep e).ioStep e' = (x.ioStep e').ioStep e := by
  have a := ioStep_other x h
  have b := ioStep_other x (Ne.symm h)
  refine ext' ?_ ?_ ?_ ?_
  · rw [ioStep_srv, ioStep_srv, ioStep_srv, ioStep_srv]
  · rw [(ioStep_add _ _).1, (ioStep_add _ _).1, (ioStep_add _ _).1, (ioStep_add _ _).1, a, b, h1, List.append_nil,
      List.append_nil]
  · rw [(ioStep_add _ _).2, (ioStep_add _ _).2, (ioStep_add _ _).2, (ioStep_add _ _).2, a, b, h2, List.append_nil,
      List.append_nil]
  · rw [ioStep_links, a, ioStep_links, ioStep_links, b, ioStep_links]
    funext s
    unfold upd
    by_cases hs : s = streamOf e'
    · rw [if_pos hs, if_neg (by rw [hs]; exact Ne.symm h), if_pos hs]
    · rw [if_neg hs]
      split
      · rfl
      · rfl

theorem linkStep_pc (l : Link) (e : SrvIo N T S) (h : (linkStep l e).pc = .reading) : l.pc = .reading := by
  cases e with
  | arrive m s => exact h
  | dies s => exact h
  | lost s =>
    simp only [linkStep] at h
    split at h
    · cases h
    · exact h
  | half s =>
    simp only [linkStep] at h
    split at h
    · cases h
    · exact h
  | bad s e =>
    simp only [linkStep] at h
    split at h
    · cases h
    · exact h
  | bye s =>
    simp only [linkStep] at h
    split at h
    · split at h
      · cases h
      · cases h
    · exact h
  | writeFails s =>
    simp only [linkStep] at h
    split at h
    · exact h
    · exact h
  | put s =>
    simp only [linkStep] at h
    split at h
    · cases h
    · exact h

theorem pc_back (es : List (SrvIo N T S)) {x : FineSrv N T K S} {s : S} (h : ((x.ioRun es).links s).pc = .reading) :
    (x.links s).pc = .reading := by
  induction es generalizing x with
  | nil => exact h
  | cons e es ih =>
    have := ih (x := x.ioStep e) h
    rw [ioStep_links] at this
    unfold upd at this
    split at this
    · rename_i hs
      rw [hs]
      exact linkStep_pc _ _ this
    · exact this

theorem queue_back (es : List (SrvIo N T S)) {x : FineSrv N T K S} (h : (x.ioRun es).queue = []) : x.queue = [] := by
  obtain ⟨q, h1, _⟩ := ioRun_queue es x
  rw [h] at h1
  exact (List.append_eq_nil_iff.1 h1.symm).1

theorem ioRun_other (es : List (SrvIo N T S)) {x : FineSrv N T K S} {s : S} (h : ∀ e ∈ es, streamOf e ≠ s) :
    (x.ioRun es).links s = x.links s := by
  induction es generalizing x with
  | nil => rfl
  | cons e es ih =>
    refine (ih (x := x.ioStep e) (fun e h' => h e (List.mem_cons_of_mem _ h'))).trans ?_
    exact ioStep_other x (h e List.mem_cons_self)

/-- Steps of a stream that is read at the end, after which there is no message, add nothing to the queues. -/
theorem quiet {x : FineSrv N T K S} {e : SrvIo N T S} (es : List (SrvIo N T S))
    (h1 : (((x.ioStep e).ioRun es).links (streamOf e)).pc = .reading) (h2 : ((x.ioStep e).ioRun es).queue = []) :
    addQueue (x.links (streamOf e)) e = [] ∧ addExcs (x.links (streamOf e)) e = [] := by
  have h3 : (x.links (streamOf e)).pc = .reading := pc_back (e :: es) h1
  have h4 := queue_back es h2
  rw [(ioStep_add x e).1] at h4
  refine ⟨(List.append_eq_nil_iff.1 h4).2, ?_⟩
  cases e with
  | put s =>
    change addExcs (x.links s) (.put s : SrvIo N T S) = []
    change (x.links s).pc = .reading at h3
    simp only [addExcs, h3]
  | _ => rfl

theorem comm_many {s : S} {e : SrvIo N T S} (he : streamOf e ≠ s) (es : List (SrvIo N T S)) {x : FineSrv N T K S}
    (hes : ∀ e' ∈ es, streamOf e' = s) (h1 : (((x.ioStep e).ioRun es).links s).pc = .reading)
    (h2 : ((x.ioStep e).ioRun es).queue = []) : (x.ioStep e).ioRun es = (x.ioRun es).ioStep e := by
  induction es generalizing x with
  | nil => rfl
  | cons e' es ih =>
    have hs := hes e' List.mem_cons_self
    have hq := quiet (x := x.ioStep e) (e := e') es (by rw [hs]; exact h1) h2
    rw [hs, ioStep_other x he, ← hs] at hq
    have hc := ioStep_comm x (e := e) (e' := e') (by rw [hs]; exact he) hq.1 hq.2
    change ((x.ioStep e).ioStep e').ioRun es = ((x.ioStep e').ioRun es).ioStep e
    have h1' : ((((x.ioStep e).ioStep e').ioRun es).links s).pc = .reading := h1
    have h2' : (((x.ioStep e).ioStep e').ioRun es).queue = [] := h2
    rw [hc] at h1' h2' ⊢
    exact ih (fun e' h => hes e' (List.mem_cons_of_mem _ h)) h1' h2'

/-- The steps of one stream can be done first. -/
theorem own_first (s : S) (u : List (SrvIo N T S)) {x : FineSrv N T K S} (h1 : ((x.ioRun u).links s).pc = .reading)
    (h2 : (x.ioRun u).queue = []) :
    x.ioRun u = (x.ioRun (u.filter (fun e => decide (streamOf e = s)))).ioRun
      (u.filter (fun e => ! decide (streamOf e = s))) := by
  induction u generalizing x with
  | nil => rfl
  | cons e u ih =>
    have hih := ih (x := x.ioStep e) h1 h2
    change (x.ioStep e).ioRun u = _
    by_cases hs : streamOf e = s
    · rw [List.filter_cons_of_pos (by simp [hs]), List.filter_cons_of_neg (by simp [hs])]
      exact hih
    · rw [List.filter_cons_of_neg (by simp [hs]), List.filter_cons_of_pos (by simp [hs])]
      have h1' : (((x.ioStep e).ioRun u).links s).pc = .reading := h1
      have h2' : ((x.ioStep e).ioRun u).queue = [] := h2
      rw [hih] at h1' h2' ⊢
      rw [comm_many hs _ (fun e' h => of_decide_eq_true (List.mem_filter.1 h).2) (pc_back _ h1') (queue_back _ h2')]
      rfl

/-- Such steps add nothing to the queue of exceptions. -/
theorem own_excs {s : S} (es : List (SrvIo N T S)) {x : FineSrv N T K S} (hes : ∀ e ∈ es, streamOf e = s)
    (h1 : ((x.ioRun es).links s).pc = .reading) (h2 : (x.ioRun es).queue = []) : (x.ioRun es).excs = x.excs := by
  induction es generalizing x with
  | nil => rfl
  | cons e es ih =>
    have hs := hes e List.mem_cons_self
    have hq := quiet (x := x) (e := e) es (by rw [hs]; exact h1) h2
    refine (ih (x := x.ioStep e) (fun e h => hes e (List.mem_cons_of_mem _ h)) h1 h2).trans ?_
    rw [(ioStep_add x e).2, hq.2, List.append_nil]

/-- The first message that arrives. -/
theorem first_arrival (es : List (SrvIo N T S)) {x : FineSrv N T K S} (h0 : x.queue = []) {m : Msg N T} {s : S}
    {q : List (Msg N T × S)} (h : (x.ioRun es).queue = (m, s) :: q) :
    ∃ u v, es = u ++ .arrive m s :: v ∧ (x.ioRun u).queue = [] ∧ ((x.ioRun u).links s).pc = .reading := by
  induction es generalizing x with
  | nil =>
    change x.queue = _ at h
    rw [h0] at h
    cases h
  | cons e es ih =>
    by_cases hq : (x.ioStep e).queue = []
    · obtain ⟨u, v, h1, h2, h3⟩ := ih (x := x.ioStep e) hq h
      exact ⟨e :: u, v, by rw [h1]; rfl, h2, h3⟩
    · obtain ⟨q', h1, _⟩ := ioRun_queue es (x.ioStep e)
      change ((x.ioStep e).ioRun es).queue = _ at h
      rw [h1] at h
      have h2 := (ioStep_add x e).1
      rw [h0, List.nil_append] at h2
      rw [h2] at h hq
      cases e with
      | arrive m' s' =>
        change addQueue (x.links s') (.arrive m' s') ++ q' = _ at h
        change ¬ addQueue (x.links s') (.arrive m' s') = [] at hq
        simp only [addQueue] at h hq
        split at h
        · rename_i hr
          cases h
          exact ⟨[], es, rfl, h0, hr⟩
        · rename_i hr
          rw [if_neg hr] at hq
          exact absurd rfl hq
      | _ => exact absurd rfl hq

/-- Messages that are there already make no difference to the IO loop. -/
theorem ioRun_prefix (p : List (Msg N T × S)) (es : List (SrvIo N T S)) (x : FineSrv N T K S) :
    ({ x with queue := p ++ x.queue } : FineSrv N T K S).ioRun es =
      { x.ioRun es with queue := p ++ (x.ioRun es).queue } := by
  induction es generalizing x with
  | nil => rfl
  | cons e es ih =>
    change (({ x with queue := p ++ x.queue } : FineSrv N T K S).ioStep e).ioRun es =
      { (x.ioStep e).ioRun es with queue := p ++ ((x.ioStep e).ioRun es).queue }
    rw [← ih]
    congr 1
    refine ext' ?_ ?_ ?_ ?_
    · rw [ioStep_srv]
      exact (ioStep_srv x e).symm
    · rw [(ioStep_add _ e).1]
      change _ = p ++ (x.ioStep e).queue
      rw [(ioStep_add x e).1, List.append_assoc]
    · rw [(ioStep_add _ e).2]
      exact (ioStep_add x e).2.symm
    · rw [ioStep_links]
      exact (ioStep_links x e).symm

/-- What the IO loop does while the blocks from block `i` on are looked at, up to (not including) block `j`. -/
def between (look : Nat → Look N T S) (i j : Nat) : List (SrvIo N T S) :=
  (List.range' i (j - i)).flatMap (fun m => Look.all (look m))

theorem between_self (look : Nat → Look N T S) (i : Nat) : between look i i = [] := by
  unfold between
  rw [Nat.sub_self]
  rfl

theorem between_head (look : Nat → Look N T S) {i j : Nat} (h : i < j) :
    between look i j = Look.all (look i) ++ between look (i + 1) j := by
  unfold between
  have : j - i = (j - (i + 1)) + 1 := by omega
  rw [this, List.range'_succ, List.flatMap_cons]

theorem between_zero (look : Nat → Look N T S) (j : Nat) :
    between look 0 j = (List.range j).flatMap (fun m => Look.all (look m)) := by
  unfold between
  rw [Nat.sub_zero, ← List.range_eq_range']

/-- The first loop of `get_lost_blocks`. -/
theorem lostIds_spec (look : Nat → Look N T S) : ∀ (b : Book N K S) (i : Nat) (x : FineSrv N T K S),
    (b.map (·.1)).Nodup →
    ((∃ j key log, b[j]? = some (key, log) ∧
        ((x.ioRun (between look i (i + j) ++ (look (i + j)).a)).links log.stream).inner = true ∧
        ((x.ioRun (between look i (i + j) ++ ((look (i + j)).a ++ (look (i + j)).b))).links log.stream).inner = false) →
      x.lostIds look i b = .error .attributeError) ∧
    ((¬ ∃ j key log, b[j]? = some (key, log) ∧
        ((x.ioRun (between look i (i + j) ++ (look (i + j)).a)).links log.stream).inner = true ∧
        ((x.ioRun (between look i (i + j) ++ ((look (i + j)).a ++ (look (i + j)).b))).links log.stream).inner = false) →
      ∃ p : K → Bool, x.lostIds look i b = .ok ((b.filter (fun e => p e.1)).map (·.1),
          x.ioRun (between look i (i + b.length))) ∧
        ∀ e ∈ b, (p e.1 = true → Shut ((x.ioRun (between look i (i + b.length))).links e.2.stream)) ∧
          (Shut (x.links e.2.stream) → p e.1 = true))
  | [], i, x, _ => by
    refine ⟨?_, fun _ => ⟨fun _ => false, ?_, by intro e he; cases he⟩⟩
    · rintro ⟨j, key, log, h, _⟩
      cases h
    · simp only [lostIds, List.filter_nil, List.map_nil, List.length_nil, Nat.add_zero, between_self]
      rfl
  | (key, log) :: b, i, x, hnd => by
    rw [List.map_cons, List.nodup_cons] at hnd
    obtain ⟨h1, h2⟩ := isClosed_spec x log.stream (look i)
    have hsh : ∀ j (es : List (SrvIo N T S)), x.ioRun (between look i (i + (j + 1)) ++ es) =
        (x.ioRun (Look.all (look i))).ioRun (between look (i + 1) (i + 1 + j) ++ es) := by
      intro j es
      rw [between_head look (by omega), ← ioRun_append, List.append_assoc, show i + 1 + j = i + (j + 1) by omega]
    by_cases hw : ((x.ioRun (look i).a).links log.stream).inner = true ∧
        ((x.ioRun ((look i).a ++ (look i).b)).links log.stream).inner = false
    · refine ⟨fun _ => by simp only [lostIds, h1 hw], fun hn => absurd ⟨0, key, log, rfl, ?_⟩ hn⟩
      rw [Nat.add_zero, between_self, List.nil_append, List.nil_append]
      exact hw
    · obtain ⟨c, h3, h4, h5⟩ := h2 hw
      obtain ⟨ih1, ih2⟩ := lostIds_spec look b (i + 1) (x.ioRun (Look.all (look i))) hnd.2
      simp only [lostIds, h3]
      constructor
      · rintro ⟨j, key', log', e1, e2, e3⟩
        cases j with
        | zero =>
          cases e1
          rw [Nat.add_zero, between_self, List.nil_append] at e2 e3
          exact absurd ⟨e2, e3⟩ hw
        | succ j =>
          rw [ih1 ⟨j, key', log', e1, by
            rw [← hsh, show i + 1 + j = i + (j + 1) by omega]; exact e2, by
            rw [← hsh, show i + 1 + j = i + (j + 1) by omega]; exact e3⟩]
      · intro hn
        obtain ⟨p, a1, a2⟩ := ih2 (by
          rintro ⟨j, key', log', e1, e2, e3⟩
          refine hn ⟨j + 1, key', log', e1, ?_, ?_⟩
          · rw [hsh, ← show i + 1 + j = i + (j + 1) by omega]; exact e2
          · rw [hsh, ← show i + 1 + j = i + (j + 1) by omega]; exact e3)
        have hfin : x.ioRun (between look i (i + ((key, log) :: b).length)) =
            (x.ioRun (Look.all (look i))).ioRun (between look (i + 1) (i + 1 + b.length)) := by
          have := hsh b.length []
          rw [List.append_nil, List.append_nil] at this
          exact this
        have hp : ∀ e ∈ b, upd p key c e.1 = p e.1 := by
          intro e he
          unfold upd
          rw [if_neg]
          intro hk
          exact hnd.1 (hk ▸ List.mem_map_of_mem (f := (·.1)) he)
        have hk : upd p key c key = c := if_pos rfl
        refine ⟨upd p key c, ?_, ?_⟩
        · rw [a1, hfin]
          simp only
          have : b.filter (fun e => upd p key c e.1) = b.filter (fun e => p e.1) :=
            List.filter_congr (fun e he => hp e he)
          rw [List.filter_cons]
          simp only [hk]
          cases c
          · simp [this]
          · simp [this]
        · intro e he
          rw [hfin]
          rcases List.mem_cons.1 he with rfl | he
          · simp only [hk]
            exact ⟨fun hc => shut_mono _ (h4 hc), h5⟩
          · rw [hp e he]
            exact ⟨(a2 e he).1, fun hs => (a2 e he).2 (shut_mono _ hs)⟩

theorem excs_mono (es : List (SrvIo N T S)) {y z : FineSrv N T K S} (h : ∀ e ∈ y.excs, e ∈ z.excs)
    (h' : y.links = z.links) : ∀ e ∈ (y.ioRun es).excs, e ∈ (z.ioRun es).excs := by
  induction es generalizing y z with
  | nil => exact h
  | cons e es ih =>
    refine ih (y := y.ioStep e) (z := z.ioStep e) ?_ ?_
    · intro e' he'
      rw [(ioStep_add y e).2] at he'
      rw [(ioStep_add z e).2]
      rcases List.mem_append.1 he' with he' | he'
      · exact List.mem_append_left _ (h e' he')
      · exact List.mem_append_right _ (by rw [← h']; exact he')
    · rw [ioStep_links, ioStep_links, h']

/-- What `get_message` does. -/
theorem getMessage_spec (x : FineSrv N T K S) (k : FineTick N T S) :
    (∀ e r, (x.ioRun k.io0).excs = .other e :: r → x.getMessage k.io0 k.io1 = .error e) ∧
    ((¬ ∃ e r, (x.ioRun k.io0).excs = .other e :: r) → ∃ r x1, x.getMessage k.io0 k.io1 = .ok (r, x1) ∧ Gets x k r ∧
      x1.srv = x.srv ∧ x1.links = (x.ioRun (k.io0 ++ k.io1)).links ∧
      (∀ p ∈ x1.queue, p ∈ (x.ioRun (k.io0 ++ k.io1)).queue) ∧
      ∀ e ∈ x1.excs, e ∈ (x.ioRun (k.io0 ++ k.io1)).excs) := by
  unfold getMessage
  simp only
  constructor
  · intro e r h
    rw [h]
  · intro hn
    rcases he : (x.ioRun k.io0).excs with _ | ⟨_ | e, r⟩
    · simp only
      rcases hq : ((x.ioRun k.io0).ioRun k.io1).queue with _ | ⟨⟨m, s⟩, q⟩
      · refine ⟨_, _, rfl, ⟨he, by rw [ioRun_append]; exact hq⟩, ?_, by rw [ioRun_append], ?_⟩
        · rw [ioRun_srv, ioRun_srv]
        · refine ⟨?_, ?_⟩ <;> (intro p hp; rw [ioRun_append]; exact hp)
      · refine ⟨_, _, rfl, ⟨he, by rw [ioRun_append, hq]; rfl⟩, ?_, by rw [ioRun_append], ?_, by
          intro p hp; rw [ioRun_append]; exact hp⟩
        · change ((x.ioRun k.io0).ioRun k.io1).srv = x.srv
          rw [ioRun_srv, ioRun_srv]
        · intro p hp
          rw [ioRun_append, hq]
          exact List.mem_cons_of_mem _ hp
    · refine ⟨_, _, rfl, ⟨r, he⟩, ?_, ?_, ?_, ?_⟩
      rotate_left 3
      · rw [ioRun_append]
        exact excs_mono _ (fun e h => by rw [he]; exact List.mem_cons_of_mem _ h) rfl
      · rw [ioRun_srv]
        exact ioRun_srv k.io0 x
      · rw [ioRun_append]
        exact ioRun_links_congr _ rfl
      · intro p hp
        rw [ioRun_append]
        have key : ∀ (es : List (SrvIo N T S)) (y z : FineSrv N T K S), y.queue = z.queue → y.links = z.links →
            (y.ioRun es).queue = (z.ioRun es).queue := by
          intro es
          induction es with
          | nil => intro y z h _; exact h
          | cons e es ih =>
            intro y z h h'
            refine ih (y.ioStep e) (z.ioStep e) ?_ ?_
            · rw [(ioStep_add y e).1, (ioStep_add z e).1, h, h']
            · rw [ioStep_links, ioStep_links, h']
        have h0 := key k.io1 ⟨(x.ioRun k.io0).srv, (x.ioRun k.io0).queue, r, (x.ioRun k.io0).links⟩ (x.ioRun k.io0) rfl rfl
        rw [← h0]
        exact hp
    · exact absurd ⟨e, r, he⟩ hn

theorem gets_unique {x : FineSrv N T K S} {k : FineTick N T S} {r r' : Server.Recv N T S} (h : Gets x k r)
    (h' : Gets x k r') : r = r' := by
  cases r with
  | msg m s =>
    obtain ⟨a, b⟩ := h
    cases r' with
    | msg m' s' => obtain ⟨_, b'⟩ := h'; rw [b] at b'; cases b'; rfl
    | nothing => obtain ⟨_, b'⟩ := h'; rw [b'] at b; cases b
    | closed => obtain ⟨r, b'⟩ := h'; rw [a] at b'; cases b'
  | nothing =>
    obtain ⟨a, b⟩ := h
    cases r' with
    | msg m' s' => obtain ⟨_, b'⟩ := h'; rw [b] at b'; cases b'
    | nothing => rfl
    | closed => obtain ⟨r, b'⟩ := h'; rw [a] at b'; cases b'
  | closed =>
    obtain ⟨r, a⟩ := h
    cases r' with
    | msg m' s' => obtain ⟨a', _⟩ := h'; rw [a] at a'; cases a'
    | nothing => obtain ⟨a', _⟩ := h'; rw [a] at a'; cases a'
    | closed => rfl

end FineSrv

/-- The second half of `_check_for_lost_blocks`, for whatever blocks were found to be lost. -/
theorem lost_sub (hg : g.Loose) {σ : Server N T K S} (h : SInv g σ) {pick : N → Nat → Finset N → N}
    (hp : ∀ n, LegalPick (pick n)) (p : K → Bool) :
    ∃ σ', Book.popLost ((σ.book.filter (fun e => p e.1)).map (·.1)) σ.book [] =
        .ok ((σ.book.filter (fun e => p e.1)).map (·.2.block), σ.book.filter (fun e => ! p e.1)) ∧
      Server.releaseLost g pick ((σ.book.filter (fun e => p e.1)).map (·.2.block))
        { σ with book := σ.book.filter (fun e => ! p e.1) } = .ok σ' ∧ SInv g σ' ∧
      (∀ n s, holder σ.out n = some s → holder σ'.out n = if p (g.key n) then none else some s) ∧
      (∀ n, holder σ.out n = none → holder σ'.out n = none) ∧
      ∃ os, σ'.out = σ.out ++ os ∧ ∀ n s, holder σ.out n = some s → p (g.key n) = true → .release n .failed ∈ os := by
  obtain ⟨L, hL⟩ : ∃ L, L = (σ.book.filter (fun e => p e.1)).map (·.2.block) := ⟨_, rfl⟩
  obtain ⟨bk, hbk⟩ : ∃ bk : Book N K S, bk = σ.book.filter (fun e => ! p e.1) := ⟨_, rfl⟩
  have hpop : Book.popLost ((σ.book.filter (fun e => p e.1)).map (·.1)) σ.book [] = .ok (L, bk) := by
    rw [Book.popLost_ok _ _ _ (Book.nodup_filter h.nodup) (fun e he => List.mem_of_mem_filter he) h.nodup, hL, hbk,
      List.nil_append]
    congr 2
    refine List.filter_congr ?_
    intro e he
    rcases hpe : p e.1 with _ | _
    · simp only [Bool.not_false, decide_eq_true_eq]
      intro hm
      obtain ⟨e', he', hk⟩ := List.mem_map.1 hm
      have := (List.mem_filter.1 he').2
      rw [hk, hpe] at this
      cases this
    · simp only [Bool.not_true, decide_eq_false_iff_not, not_not]
      exact List.mem_map.2 ⟨e, List.mem_filter.2 ⟨he, hpe⟩, rfl⟩
  have hmem : ∀ n, n ∈ L ↔ ∃ s, holder σ.out n = some s ∧ p (g.key n) = true := by
    intro n
    rw [hL, List.mem_map]
    constructor
    · rintro ⟨e, he, rfl⟩
      obtain ⟨h1, h2⟩ := List.mem_filter.1 he
      obtain ⟨h3, h4⟩ := h.entry e h1
      have := h.book _ h3
      rw [← h4, Book.get_of_mem (k := e.1) (l := e.2) h.nodup h1] at this
      exact ⟨e.2.stream, this.symm, by rw [← h4]; exact h2⟩
    · rintro ⟨s, h1, h2⟩
      have hn : n ∈ g.nodes := h.toSCore.mem hg (by rw [h1]; exact Option.some_ne_none s)
      have := h.book n hn
      rw [h1, Option.map_eq_some_iff] at this
      obtain ⟨l, h3, h4⟩ := this
      have h5 := Book.get_mem h3
      refine ⟨_, List.mem_filter.2 ⟨h5, h2⟩, ?_⟩
      obtain ⟨h6, h7⟩ := h.entry _ h5
      exact hg.key_inj _ h6 n hn h7.symm
  have hnd : L.Nodup := by
    rw [hL]
    refine List.Nodup.map_on ?_ (List.Nodup.filter _ h.nodup.of_map)
    intro a ha b hb hab
    have ha' := List.mem_of_mem_filter ha
    have hb' := List.mem_of_mem_filter hb
    refine List.inj_on_of_nodup_map h.nodup ha' hb' ?_
    rw [(h.entry a ha').2, (h.entry b hb').2, hab]
  have hl : SLost g { σ with book := bk } L := by
    refine ⟨⟨h.run, h.held⟩, ?_, ?_, hnd, ?_, ?_⟩
    · rw [hbk]; exact Book.nodup_filter h.nodup
    · intro e he
      rw [hbk] at he
      exact h.entry e (List.mem_of_mem_filter he)
    · intro n hn
      obtain ⟨s, h1, h2⟩ := (hmem n).1 hn
      refine ⟨?_, by rw [h1]; exact Option.some_ne_none s⟩
      change bk.get (g.key n) = none
      rw [Book.get_none_iff, hbk]
      intro hm
      obtain ⟨e, he, hk⟩ := List.mem_map.1 hm
      have he2 := (List.mem_filter.1 he).2
      rw [hk, h2] at he2
      cases he2
    · intro n hn hnL
      change (bk.get (g.key n)).map _ = holder σ.out n
      rw [← h.book n hn]
      rcases hgn : σ.book.get (g.key n) with _ | l
      · have : bk.get (g.key n) = none := by
          rw [Book.get_none_iff] at hgn ⊢
          intro hm
          apply hgn
          rw [hbk] at hm
          obtain ⟨e, he, hk⟩ := List.mem_map.1 hm
          exact List.mem_map.2 ⟨e, List.mem_of_mem_filter he, hk⟩
        rw [this]
      · have h3 := Book.get_mem hgn
        have h4 := h.book n hn
        rw [hgn] at h4
        have h5 : p (g.key n) = false := by
          cases hc : p (g.key n)
          · rfl
          · exact absurd ((hmem n).2 ⟨l.stream, h4.symm, hc⟩) hnL
        have h6 : (g.key n, l) ∈ bk := by
          rw [hbk]
          exact List.mem_filter.2 ⟨h3, by simp [h5]⟩
        rw [Book.get_of_mem (by rw [hbk]; exact Book.nodup_filter h.nodup) h6]
  obtain ⟨σ', os, r1, r2, _, _, r6, _, _, r8, r9⟩ := releaseLost_ok hg hp L _ hl
  rw [← hL, ← hbk]
  refine ⟨σ', hpop, r1, r2, ?_, ?_, os, r6, ?_⟩
  · intro n s hn
    rw [r9]
    by_cases hk : p (g.key n) = true
    · rw [if_pos ((hmem n).2 ⟨s, hn, hk⟩), if_pos hk]
    · rw [if_neg (fun hm => hk ((hmem n).1 hm).choose_spec.2), if_neg hk]
      exact hn
  · intro n hn
    rw [r9]
    split
    · rfl
    · exact hn
  · intro n s hn hk
    have := r8 n .failed
    rw [if_pos ⟨(hmem n).2 ⟨s, hn, hk⟩, rfl⟩] at this
    exact List.count_pos_iff.1 (by omega)

open FineSrv

/-- Everything that happens in one iteration. -/
theorem fine_cases (x : FineSrv N T K S) (k : FineTick N T S) :
    (∀ e r, (x.ioRun k.io0).excs = .other e :: r → x.iteration g cfg k = .error e) ∧
    (∀ r e, Gets x k r → x.srv.handleMessages g cfg k.chk k.pick k.now r = .error e → x.iteration g cfg k = .error e) ∧
    (∀ r σ, Gets x k r → x.srv.handleMessages g cfg k.chk k.pick k.now r = .ok σ → (σ.book.map (·.1)).Nodup →
      Caught x k σ.book → x.iteration g cfg k = .error .attributeError) ∧
    (∀ r σ, Gets x k r → x.srv.handleMessages g cfg k.chk k.pick k.now r = .ok σ → g.Loose → SInv g σ →
      (∀ n, LegalPick (k.pickLost n)) → ¬ Caught x k σ.book →
      ∃ (p : K → Bool) (σ' : Server N T K S) (x' : FineSrv N T K S), x.iteration g cfg k = .ok x' ∧
        x'.srv = (if k.late then σ'.checkAll g else σ') ∧
        Server.releaseLost g k.pickLost ((σ.book.filter (fun e => p e.1)).map (·.2.block))
          { σ with book := σ.book.filter (fun e => ! p e.1) } = .ok σ' ∧ SInv g σ' ∧
        (∀ n s, holder σ.out n = some s → holder σ'.out n = if p (g.key n) then none else some s) ∧
        (∀ n, holder σ.out n = none → holder σ'.out n = none) ∧
        x'.links = (x.ioRun (ioBefore k σ.book.length)).links ∧
        (∀ e ∈ σ.book, (p e.1 = true → Shut (x'.links e.2.stream)) ∧
          (Shut ((x.ioRun (k.io0 ++ k.io1)).links e.2.stream) → p e.1 = true)) ∧
        (∀ q ∈ x'.queue, q ∈ (x.ioRun (k.io0 ++ k.io1)).queue ∨ ∃ i, .arrive q.1 q.2 ∈ Look.all (k.look i)) ∧
        ∀ e ∈ x'.excs, e ∈ (x.ioRun (ioBefore k σ.book.length)).excs) := by
  obtain ⟨g1, g2⟩ := getMessage_spec x k
  have hget : ∀ r, Gets x k r → ∃ x1, x.getMessage k.io0 k.io1 = .ok (r, x1) ∧ x1.srv = x.srv ∧
      x1.links = (x.ioRun (k.io0 ++ k.io1)).links ∧ (∀ p ∈ x1.queue, p ∈ (x.ioRun (k.io0 ++ k.io1)).queue) ∧
      ∀ e ∈ x1.excs, e ∈ (x.ioRun (k.io0 ++ k.io1)).excs := by
    intro r hr
    obtain ⟨r', x1, h1, h2, h3⟩ := g2 (by
      rintro ⟨e, l, he⟩
      cases r with
      | msg m s => have := hr.1; rw [he] at this; cases this
      | nothing => have := hr.1; rw [he] at this; cases this
      | closed => obtain ⟨l', h⟩ := hr; rw [he] at h; cases h)
    have := gets_unique h2 hr
    subst this
    exact ⟨x1, h1, h3⟩
  have hlook : ∀ (x1 : FineSrv N T K S) (σ : Server N T K S), x1.links = (x.ioRun (k.io0 ++ k.io1)).links →
      ∀ (i : Nat) (es : List (SrvIo N T S)),
        ((({ x1 with srv := σ } : FineSrv N T K S)).ioRun (between k.look 0 (0 + i) ++ es)).links =
        (x.ioRun (ioBefore k i ++ es)).links := by
    intro x1 σ hl i es
    rw [Nat.zero_add, between_zero]
    unfold ioBefore
    rw [List.append_assoc, ioRun_append x]
    exact ioRun_links_congr _ hl
  have hcaught : ∀ (x1 : FineSrv N T K S) (σ : Server N T K S), x1.links = (x.ioRun (k.io0 ++ k.io1)).links →
      (Caught x k σ.book ↔ ∃ j key log, σ.book[j]? = some (key, log) ∧
        ((({ x1 with srv := σ } : FineSrv N T K S).ioRun (between k.look 0 (0 + j) ++ (k.look (0 + j)).a)).links
          log.stream).inner = true ∧
        ((({ x1 with srv := σ } : FineSrv N T K S).ioRun (between k.look 0 (0 + j) ++
          ((k.look (0 + j)).a ++ (k.look (0 + j)).b))).links log.stream).inner = false) := by
    intro x1 σ hl
    unfold Caught
    constructor
    · rintro ⟨i, key, log, h1, h2, h3⟩
      refine ⟨i, key, log, h1, ?_, ?_⟩
      · rw [hlook x1 σ hl, Nat.zero_add]; exact h2
      · rw [hlook x1 σ hl, Nat.zero_add, ← List.append_assoc]; exact h3
    · rintro ⟨i, key, log, h1, h2, h3⟩
      rw [hlook x1 σ hl, Nat.zero_add] at h2 h3
      rw [← List.append_assoc] at h3
      exact ⟨i, key, log, h1, h2, h3⟩
  refine ⟨?_, ?_, ?_, ?_⟩
  · intro e r h
    unfold iteration
    rw [g1 e r h]
  · intro r e hr h
    obtain ⟨x1, h1, h2, _⟩ := hget r hr
    unfold iteration
    rw [h1]
    simp only
    rw [h2, h]
  · intro r σ hr h hnd hc
    obtain ⟨x1, h1, h2, h3, _⟩ := hget r hr
    obtain ⟨l1, _⟩ := lostIds_spec k.look σ.book 0 ({ x1 with srv := σ } : FineSrv N T K S) hnd
    unfold iteration
    rw [h1]
    simp only
    rw [h2, h]
    simp only
    unfold checkLost
    rw [l1 ((hcaught x1 σ h3).1 hc)]
  · intro r σ hr h hg hi hp hc
    obtain ⟨x1, h1, h2, h3, h4, h4'⟩ := hget r hr
    obtain ⟨_, l2⟩ := lostIds_spec k.look σ.book 0 ({ x1 with srv := σ } : FineSrv N T K S) hi.nodup
    obtain ⟨p, l3, l4⟩ := l2 (fun hx => hc ((hcaught x1 σ h3).2 hx))
    obtain ⟨σ', m1, m2, m3, m4, m5, _⟩ := lost_sub hg hi hp p
    have hfin := hlook x1 σ h3 σ.book.length []
    rw [List.append_nil, List.append_nil] at hfin
    have hres : x.iteration g cfg k = .ok (if k.late then
        { ({ x1 with srv := σ } : FineSrv N T K S).ioRun (between k.look 0 (0 + σ.book.length)) with
          srv := σ'.checkAll g }
        else { ({ x1 with srv := σ } : FineSrv N T K S).ioRun (between k.look 0 (0 + σ.book.length)) with srv := σ' }) := by
      unfold iteration
      rw [h1]
      simp only
      rw [h2, h]
      simp only
      unfold checkLost
      simp only
      rw [l3]
      simp only
      rw [m1]
      simp only
      rw [m2]
    have hexcs : ∀ e ∈ (({ x1 with srv := σ } : FineSrv N T K S).ioRun (between k.look 0 (0 + σ.book.length))).excs,
        e ∈ (x.ioRun (ioBefore k σ.book.length)).excs := by
      unfold ioBefore
      rw [ioRun_append x, Nat.zero_add, between_zero]
      exact excs_mono _ h4' h3
    refine ⟨p, σ', _, hres, ?_, m2, m3, m4, m5, ?_, ?_, ?_, ?_⟩
    rotate_left 4
    · split <;> exact hexcs
    · split <;> rfl
    · split <;> exact hfin
    · intro e he
      obtain ⟨a, b⟩ := l4 e he
      refine ⟨fun hpe => ?_, fun hs => b ?_⟩
      · split <;> exact a hpe
      · change Shut (x1.links e.2.stream)
        rw [h3]
        exact hs
    · intro q hq
      have hq' : q ∈ (({ x1 with srv := σ } : FineSrv N T K S).ioRun (between k.look 0 (0 + σ.book.length))).queue := by
        split at hq <;> exact hq
      obtain ⟨q', a, b⟩ := ioRun_queue (between k.look 0 (0 + σ.book.length)) ({ x1 with srv := σ } : FineSrv N T K S)
      rw [a] at hq'
      rcases List.mem_append.1 hq' with hq' | hq'
      · exact Or.inl (h4 q hq')
      · have := b q hq'
        unfold between at this
        obtain ⟨i, _, hi⟩ := List.mem_flatMap.1 this
        exact Or.inr ⟨i, hi⟩

end Verif
