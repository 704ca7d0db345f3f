import Verif.Spec.TcpThreads

/-! # Lemmas on `Model/TcpThreads` -/

namespace Verif.FineTcp

open Spec.Threads

variable {B T : Type} {s : FineTcp B T}

theorem ioRun_nil (s : FineTcp B T) : s.ioRun [] = s := rfl

theorem ioRun_cons (s : FineTcp B T) (ev : IoEv B) (evs : List (IoEv B)) :
    s.ioRun (ev :: evs) = (s.ioStep ev).ioRun evs := rfl

theorem ioRun_append (s : FineTcp B T) (a b : List (IoEv B)) : s.ioRun (a ++ b) = (s.ioRun a).ioRun b := by
  unfold ioRun
  rw [List.foldl_append]

/-- Induction over the steps of the IO loop. -/
theorem ioRun_ind {P : FineTcp B T → Prop} (hP : ∀ s ev, P s → P (s.ioStep ev)) : ∀ (evs : List (IoEv B))
    (s : FineTcp B T), P s → P (s.ioRun evs)
  | [], _, h => h
  | ev :: evs, s, h => ioRun_ind hP evs _ (hP s ev h)

theorem sound_step (ev : IoEv B) (h : Sound s) : Sound (s.ioStep ev) := by
  obtain ⟨excs, outer, inner, inbox, posted, io⟩ := s
  obtain ⟨h1, h2, h3⟩ := h
  dsimp only at h1 h2 h3
  cases io <;> cases ev <;> constructor <;> simp_all [ioStep]

theorem sound_run (evs : List (IoEv B)) (h : Sound s) : Sound (s.ioRun evs) :=
  ioRun_ind (fun _ ev h => sound_step ev h) evs s h

theorem sound_up (h : Alive s) : Sound s := by
  obtain ⟨h1, h2, h3, h4⟩ := h
  constructor <;> simp_all

theorem outer_step (ev : IoEv B) (h : s.outer = false) : (s.ioStep ev).outer = false := by
  obtain ⟨excs, outer, inner, inbox, posted, io⟩ := s
  dsimp only at h
  cases io <;> cases ev <;> simp_all [ioStep]

theorem outer_run (evs : List (IoEv B)) (h : s.outer = false) : (s.ioRun evs).outer = false :=
  ioRun_ind (P := fun x => x.outer = false) (fun _ ev h => outer_step ev h) evs s h

theorem inner_step (ev : IoEv B) (h : s.inner = false) : (s.ioStep ev).inner = false := by
  obtain ⟨excs, outer, inner, inbox, posted, io⟩ := s
  dsimp only at h
  cases io <;> cases ev <;> simp_all [ioStep]

theorem inner_run (evs : List (IoEv B)) (h : s.inner = false) : (s.ioRun evs).inner = false :=
  ioRun_ind (P := fun x => x.inner = false) (fun _ ev h => inner_step ev h) evs s h

theorem outer_back {evs : List (IoEv B)} (h : (s.ioRun evs).outer = true) : s.outer = true := by
  by_contra hn
  rw [outer_run evs (by simpa using hn)] at h
  cases h

theorem inner_back {evs : List (IoEv B)} (h : (s.ioRun evs).inner = true) : s.inner = true := by
  by_contra hn
  rw [inner_run evs (by simpa using hn)] at h
  cases h

/-- When `_receive` has returned nothing changes any more. -/
theorem over_run (evs : List (IoEv B)) (h : s.io = .over) : s.ioRun evs = s := by
  induction evs with
  | nil => rfl
  | cons ev evs ih =>
    rw [ioRun_cons]
    have : s.ioStep ev = s := by
      obtain ⟨excs, outer, inner, inbox, posted, io⟩ := s
      dsimp only at h
      subst h
      cases ev <;> rfl
    rw [this, ih]

theorem posted_run (evs : List (IoEv B)) : ∀ (s : FineTcp B T) (p : List (ClientMsg B T)),
    { s with posted := p }.ioRun evs = { s.ioRun evs with posted := p } := by
  induction evs with
  | nil => intro s p; rfl
  | cons ev evs ih =>
    intro s p
    rw [ioRun_cons, ioRun_cons, ← ih]
    congr 1
    obtain ⟨excs, outer, inner, inbox, posted, io⟩ := s
    cases io <;> cases ev <;> rfl

theorem posted_same (evs : List (IoEv B)) (s : FineTcp B T) : (s.ioRun evs).posted = s.posted := by
  refine ioRun_ind (P := fun x => x.posted = s.posted) ?_ evs s rfl
  intro x ev hx
  obtain ⟨excs, outer, inner, inbox, posted, io⟩ := x
  cases io <;> cases ev <;> exact hx

theorem inbox_run (evs : List (IoEv B)) : ∀ (s : FineTcp B T) (m : ServerMsg B) (r : List (ServerMsg B)),
    { s with inbox := m :: r }.ioRun evs =
      { { s with inbox := r }.ioRun evs with inbox := m :: ({ s with inbox := r }.ioRun evs).inbox } := by
  induction evs with
  | nil => intro s m r; rfl
  | cons ev evs ih =>
    intro s m r
    rw [ioRun_cons, ioRun_cons]
    obtain ⟨excs, outer, inner, inbox, posted, io⟩ := s
    cases io <;> cases ev <;> exact ih ⟨_, _, _, [], _, _⟩ m _

/-- Only while `_receive` reads do messages arrive. -/
theorem inbox_quiet (evs : List (IoEv B)) (h : s.io ≠ .reading) : (s.ioRun evs).inbox = s.inbox := by
  refine (ioRun_ind (P := fun x => x.io ≠ .reading ∧ x.inbox = s.inbox) ?_ evs s ⟨h, rfl⟩).2
  rintro x ev ⟨h1, h2⟩
  obtain ⟨excs, outer, inner, inbox, posted, io⟩ := x
  cases io <;> cases ev <;> first | exact absurd rfl h1 | exact ⟨by simp [ioStep], h2⟩

theorem inbox_back {evs : List (IoEv B)} (h : (s.ioRun evs).inbox = []) : s.inbox = [] := by
  by_contra hn
  have := ioRun_ind (P := fun x => x.inbox ≠ []) (fun x ev hx => by
    obtain ⟨excs, outer, inner, inbox, posted, io⟩ := x
    cases io <;> cases ev <;> simp_all [ioStep]) evs s hn
  exact this h

/-- A queue that is empty and then is not: in between it got its first message, while `_receive` was reading and no
exception was in the other queue. -/
theorem first_message (evs : List (IoEv B)) : ∀ (s : FineTcp B T), s.excs = [] → s.inbox = [] →
    ∀ {m : ServerMsg B} {r : List (ServerMsg B)}, (s.ioRun evs).inbox = m :: r →
    ∃ a b, evs = a ++ b ∧ (s.ioRun a).excs = [] ∧ (s.ioRun a).io = .reading ∧ (s.ioRun a).inbox = [m] := by
  induction evs with
  | nil => intro s _ h m r hm; rw [ioRun_nil, h] at hm; cases hm
  | cons ev evs ih =>
    intro s he hi m r hm
    by_cases hr : s.io = .reading
    · rw [ioRun_cons] at hm
      obtain ⟨excs, outer, inner, inbox, posted, io⟩ := s
      dsimp only at he hi hr
      subst he hi hr
      cases ev with
      | recv m' =>
        have e : (⟨[], outer, inner, [], posted, .reading⟩ : FineTcp B T).ioStep (.recv m') =
            ⟨[], outer, inner, [m'], posted, .reading⟩ := rfl
        rw [e, inbox_run evs ⟨[], outer, inner, [], posted, .reading⟩ m' []] at hm
        simp only [List.cons.injEq] at hm
        obtain ⟨rfl, _⟩ := hm
        exact ⟨[.recv m'], evs, rfl, rfl, rfl, rfl⟩
      | lost => obtain ⟨a, b, h1, h2⟩ := ih _ rfl rfl hm; exact ⟨.lost :: a, b, by rw [h1]; rfl, h2⟩
      | bad e => obtain ⟨a, b, h1, h2⟩ := ih _ rfl rfl hm; exact ⟨.bad e :: a, b, by rw [h1]; rfl, h2⟩
      | ack => obtain ⟨a, b, h1, h2⟩ := ih _ rfl rfl hm; exact ⟨.ack :: a, b, by rw [h1]; rfl, h2⟩
      | writeFails => obtain ⟨a, b, h1, h2⟩ := ih _ rfl rfl hm; exact ⟨.writeFails :: a, b, by rw [h1]; rfl, h2⟩
      | go => obtain ⟨a, b, h1, h2⟩ := ih _ rfl rfl hm; exact ⟨.go :: a, b, by rw [h1]; rfl, h2⟩
    · rw [inbox_quiet _ hr, hi] at hm
      cases hm

theorem onlyLost_step {ev : IoEv B} (hev : ∀ e, ev ≠ .bad e) (h : OnlyLost s) : OnlyLost (s.ioStep ev) := by
  obtain ⟨excs, outer, inner, inbox, posted, io⟩ := s
  obtain ⟨h1, h2⟩ := h
  dsimp only at h1 h2
  cases io with
  | raising e =>
    cases ev with
    | go =>
      refine ⟨fun e' he' => (by cases he'), fun x hx => ?_⟩
      rcases List.mem_append.1 hx with hx | hx
      · exact h2 x hx
      · rw [List.mem_singleton.1 hx, (h1 e rfl).1]
        decide
    | _ => exact ⟨h1, h2⟩
  | reading =>
    cases ev with
    | bad e => exact absurd rfl (hev e)
    | lost => exact ⟨fun e he => (by cases he; exact ⟨rfl, rfl⟩), h2⟩
    | recv m => exact ⟨fun e he => (by cases he), h2⟩
    | ack => exact ⟨fun e he => (by cases he), h2⟩
    | writeFails => exact ⟨fun e he => (by cases he), h2⟩
    | go => exact ⟨fun e he => (by cases he), h2⟩
  | closing => cases ev <;> exact ⟨fun e he => (by cases he), h2⟩
  | clearing => cases ev <;> exact ⟨fun e he => (by cases he), h2⟩
  | over => cases ev <;> exact ⟨fun e he => (by cases he), h2⟩

theorem onlyLost_run : ∀ {evs : List (IoEv B)} {s : FineTcp B T}, Understood evs → OnlyLost s → OnlyLost (s.ioRun evs)
  | [], _, _, h => h
  | ev :: evs, _, hu, h => onlyLost_run (evs := evs) (fun x hx => hu x (List.mem_cons_of_mem _ hx))
      (onlyLost_step (hu ev List.mem_cons_self) h)

/-- A stream that is open and then is not: in between it was closed, while `self.stream` was not `None` and no
exception was in the queue. -/
theorem first_closed : ∀ (evs : List (IoEv B)) (s : FineTcp B T), Understood evs → Sound s → OnlyLost s → s.excs = [] →
    s.outer = true → (s.ioRun evs).inner = false →
    ∃ a b, evs = a ++ b ∧ (s.ioRun a).excs = [] ∧ (s.ioRun a).outer = true ∧ (s.ioRun a).inner = false := by
  intro evs
  induction evs with
  | nil => intro s _ _ _ he ho hi; exact ⟨[], [], rfl, he, ho, hi⟩
  | cons ev evs ih =>
    intro s hu hs hl he ho hi
    by_cases hin : s.inner = false
    · exact ⟨[], ev :: evs, rfl, he, ho, hin⟩
    · have hio : ∀ e, s.io ≠ .raising e := fun e h => hin (hl.raising e h).2
      have hcl : s.io ≠ .clearing := fun h => hin (hs.clearing h)
      have h1 : (s.ioStep ev).excs = [] := by
        obtain ⟨excs, outer, inner, inbox, posted, io⟩ := s
        dsimp only at he
        subst he
        cases io <;> cases ev <;> first | rfl | exact absurd rfl (hio _)
      have h2 : (s.ioStep ev).outer = true := by
        obtain ⟨excs, outer, inner, inbox, posted, io⟩ := s
        dsimp only at ho
        subst ho
        cases io <;> cases ev <;> first | rfl | exact absurd rfl hcl
      obtain ⟨a, b, h3, h4⟩ := ih _ (fun x hx => hu x (List.mem_cons_of_mem _ hx)) (sound_step ev hs)
        (onlyLost_step (hu ev List.mem_cons_self) hl) h1 h2 hi
      exact ⟨ev :: a, b, by rw [h3]; rfl, h4⟩

/-- How far `_receive` is from its end. -/
def IoPc.left : IoPc → Nat
  | .reading => 4
  | .raising _ => 3
  | .closing => 2
  | .clearing => 1
  | .over => 0

theorem left_step (ev : IoEv B) (s : FineTcp B T) : IoPc.left (s.ioStep ev).io ≤ IoPc.left s.io := by
  obtain ⟨excs, outer, inner, inbox, posted, io⟩ := s
  cases io <;> cases ev <;> simp [ioStep, IoPc.left]

theorem left_go (s : FineTcp B T) (h : s.io ≠ .reading) :
    IoPc.left (s.ioStep .go).io ≤ IoPc.left s.io - 1 ∧ (s.ioStep .go).io ≠ .reading := by
  obtain ⟨excs, outer, inner, inbox, posted, io⟩ := s
  cases io <;> simp_all [ioStep, IoPc.left]

theorem left_other (ev : IoEv B) (s : FineTcp B T) (h : s.io ≠ .reading) : (s.ioStep ev).io ≠ .reading := by
  obtain ⟨excs, outer, inner, inbox, posted, io⟩ := s
  cases io <;> cases ev <;> simp_all [ioStep]

theorem gone_go : ∀ (evs : List (IoEv B)) (n : Nat) (s : FineTcp B T), s.io ≠ .reading → IoPc.left s.io ≤ n →
    (List.replicate n IoEv.go).Sublist evs → (s.ioRun evs).io = .over := by
  intro evs
  induction evs with
  | nil =>
    intro n s hr hn hs
    have hn0 : n = 0 := by
      cases n with
      | zero => rfl
      | succ n => rw [List.replicate_succ] at hs; cases hs
    rw [ioRun_nil]
    subst hn0
    cases h : s.io <;> simp_all [IoPc.left]
  | cons ev evs ih =>
    intro n s hr hn hs
    rw [ioRun_cons]
    cases n with
    | zero => exact ih 0 _ (left_other ev s hr) ((left_step ev s).trans hn) (List.nil_sublist _)
    | succ n =>
      rw [List.replicate_succ] at hs
      cases hs with
      | cons _ h => exact ih (n + 1) _ (left_other ev s hr) ((left_step ev s).trans hn) (by rwa [List.replicate_succ])
      | cons_cons _ h => exact ih n _ (left_go s hr).2 (by have := (left_go s hr).1; omega) h

/-- If the connection is lost and `_receive` goes on, it comes to its end, wherever it was. -/
theorem gone_over : ∀ (evs : List (IoEv B)) (s : FineTcp B T), Gone evs → (s.ioRun evs).io = .over := by
  intro evs
  induction evs with
  | nil => intro s h; cases h
  | cons ev evs ih =>
    intro s h
    rw [ioRun_cons]
    cases h with
    | cons _ h => exact ih _ h
    | cons_cons _ h =>
      refine gone_go evs 3 _ ?_ ?_ h
      · obtain ⟨excs, outer, inner, inbox, posted, io⟩ := s
        cases io <;> simp [ioStep]
      · obtain ⟨excs, outer, inner, inbox, posted, io⟩ := s
        cases io <;> simp [ioStep, IoPc.left]

theorem recv_run : ∀ {evs : List (IoEv B)} {s : FineTcp B T}, OnlyRecv evs → Alive s → Alive (s.ioRun evs)
  | [], _, _, h => h
  | ev :: evs, s, hu, h => by
    refine recv_run (evs := evs) (s := s.ioStep ev) (fun x hx => hu x (List.mem_cons_of_mem _ hx)) ?_
    obtain ⟨m, rfl⟩ := hu ev List.mem_cons_self
    obtain ⟨excs, outer, inner, inbox, posted, io⟩ := s
    obtain ⟨h1, h2, h3, h4⟩ := h
    dsimp only at h1 h2 h3 h4
    subst h1 h2 h3 h4
    exact ⟨rfl, rfl, rfl, rfl⟩

/-- After the exception was put into the queue, or would have been, the queue stays as it is. -/
theorem excs_quiet (evs : List (IoEv B)) (h : IoPc.left s.io ≤ 2) : (s.ioRun evs).excs = s.excs := by
  refine (ioRun_ind (P := fun x => IoPc.left x.io ≤ 2 ∧ x.excs = s.excs) ?_ evs s ⟨h, rfl⟩).2
  rintro x ev ⟨h1, h2⟩
  refine ⟨(left_step ev x).trans h1, ?_⟩
  obtain ⟨excs, outer, inner, inbox, posted, io⟩ := x
  cases io <;> cases ev <;> first | exact h2 | simp [IoPc.left] at h1

/-- `_receive` puts at most one exception into the queue. -/
theorem excs_one (evs : List (IoEv B)) (h : s.excs = []) : (s.ioRun evs).excs = [] ∨
    ∃ e, (s.ioRun evs).excs = [e] ∧ IoPc.left (s.ioRun evs).io ≤ 2 := by
  refine ioRun_ind (P := fun x => x.excs = [] ∨ ∃ e, x.excs = [e] ∧ IoPc.left x.io ≤ 2) ?_ evs s (Or.inl h)
  intro x ev hx
  rcases hx with hx | ⟨e, hx, hl⟩
  · obtain ⟨excs, outer, inner, inbox, posted, io⟩ := x
    dsimp only at hx
    subst hx
    cases io with
    | raising e =>
      cases ev with
      | go => exact Or.inr ⟨e, rfl, by simp [ioStep, IoPc.left]⟩
      | _ => exact Or.inl rfl
    | _ => cases ev <;> exact Or.inl rfl
  · refine Or.inr ⟨e, ?_, (left_step ev x).trans hl⟩
    have := excs_quiet (s := x) [ev] hl
    rw [ioRun_cons, ioRun_nil] at this
    rw [this, hx]

theorem excs_back {evs : List (IoEv B)} (h : (s.ioRun evs).excs = []) : s.excs = [] := by
  by_contra hn
  have := ioRun_ind (P := fun x => x.excs ≠ []) (fun x ev hx => by
    obtain ⟨excs, outer, inner, inbox, posted, io⟩ := x
    cases io <;> cases ev <;> simp_all [ioStep]) evs s hn
  exact this h

/-! ## What the calls do, case by case -/

theorem get_exc {c : List (IoEv B)} {e : ClientErr} {x : List ClientErr} (h : (s.ioRun c).excs = e :: x)
    (r k : List (IoEv B)) : s.get c r k = (.error e, { s.ioRun c with excs := x }) := by
  unfold get; simp [h]

theorem get_gone {c r : List (IoEv B)} (h : (s.ioRun c).excs = []) (ho : ((s.ioRun c).ioRun r).outer = false)
    (k : List (IoEv B)) : s.get c r k = (.error .notConnected, (s.ioRun c).ioRun r) := by
  unfold get; simp [h, ho]

theorem get_none {c r k : List (IoEv B)} (h : (s.ioRun c).excs = []) (ho : ((s.ioRun c).ioRun r).outer = true)
    (hi : (((s.ioRun c).ioRun r).ioRun k).inbox = []) : s.get c r k = (.ok none, ((s.ioRun c).ioRun r).ioRun k) := by
  unfold get; simp [h, ho, hi]

theorem get_some {c r k : List (IoEv B)} {m : ServerMsg B} {x : List (ServerMsg B)} (h : (s.ioRun c).excs = [])
    (ho : ((s.ioRun c).ioRun r).outer = true) (hi : (((s.ioRun c).ioRun r).ioRun k).inbox = m :: x) :
    s.get c r k = (.ok (some m), { ((s.ioRun c).ioRun r).ioRun k with inbox := x }) := by
  unfold get; simp [h, ho, hi]

/-- The four ways in which `get_message` can end. -/
theorem get_cases (s : FineTcp B T) (c r k : List (IoEv B)) :
    (∃ e x, (s.ioRun c).excs = e :: x ∧ s.get c r k = (.error e, { s.ioRun c with excs := x })) ∨
    ((s.ioRun c).excs = [] ∧ ((s.ioRun c).ioRun r).outer = false ∧
      s.get c r k = (.error .notConnected, (s.ioRun c).ioRun r)) ∨
    ((s.ioRun c).excs = [] ∧ ((s.ioRun c).ioRun r).outer = true ∧ (((s.ioRun c).ioRun r).ioRun k).inbox = [] ∧
      s.get c r k = (.ok none, ((s.ioRun c).ioRun r).ioRun k)) ∨
    (∃ m x, (s.ioRun c).excs = [] ∧ ((s.ioRun c).ioRun r).outer = true ∧
      (((s.ioRun c).ioRun r).ioRun k).inbox = m :: x ∧
      s.get c r k = (.ok (some m), { ((s.ioRun c).ioRun r).ioRun k with inbox := x })) := by
  cases h : (s.ioRun c).excs with
  | cons e x => exact Or.inl ⟨e, x, rfl, get_exc h r k⟩
  | nil =>
    cases ho : ((s.ioRun c).ioRun r).outer with
    | false => exact Or.inr (Or.inl ⟨rfl, rfl, get_gone h ho k⟩)
    | true =>
      cases hi : (((s.ioRun c).ioRun r).ioRun k).inbox with
      | nil => exact Or.inr (Or.inr (Or.inl ⟨rfl, rfl, rfl, get_none h ho hi⟩))
      | cons m x => exact Or.inr (Or.inr (Or.inr ⟨m, x, rfl, rfl, rfl, get_some h ho hi⟩))

theorem post_raises {a : List (IoEv B)} (m : ClientMsg B T) (ho : (s.ioRun a).outer = false) (i : List (IoEv B)) :
    s.post m a i = (.error attributeError, s.ioRun a) := by
  unfold post; simp [ho]

theorem post_closed {a i : List (IoEv B)} (m : ClientMsg B T) (ho : (s.ioRun a).outer = true)
    (hi : ((s.ioRun a).ioRun i).inner = false) : s.post m a i = (.error .streamClosed, (s.ioRun a).ioRun i) := by
  unfold post; simp [ho, hi]

theorem post_ok {a i : List (IoEv B)} (m : ClientMsg B T) (ho : (s.ioRun a).outer = true)
    (hi : ((s.ioRun a).ioRun i).inner = true) :
    s.post m a i = (.ok (), { (s.ioRun a).ioRun i with posted := ((s.ioRun a).ioRun i).posted ++ [m] }) := by
  unfold post; simp [ho, hi]

theorem send_exc {c : List (IoEv B)} {e : ClientErr} {x : List ClientErr} (m : ClientMsg B T)
    (h : (s.ioRun c).excs = e :: x) (r a i : List (IoEv B)) :
    s.send m c r a i = (.error e, { s.ioRun c with excs := x }) := by
  unfold send; simp [h]

theorem send_gone {c r : List (IoEv B)} (m : ClientMsg B T) (h : (s.ioRun c).excs = [])
    (ho : ((s.ioRun c).ioRun r).outer = false) (a i : List (IoEv B)) :
    s.send m c r a i = (.error .notConnected, (s.ioRun c).ioRun r) := by
  unfold send; simp [h, ho]

theorem send_post {c r : List (IoEv B)} (m : ClientMsg B T) (h : (s.ioRun c).excs = [])
    (ho : ((s.ioRun c).ioRun r).outer = true) (a i : List (IoEv B)) :
    s.send m c r a i = ((s.ioRun c).ioRun r).post m a i := by
  unfold send; simp [h, ho]

/-! ## Where `_receive` is depends on its own steps only -/

/-- `ioStep`, as far as `_receive` is concerned. -/
def pcStep (pc : IoPc) (ev : IoEv B) : IoPc :=
  match pc, ev with
  | .reading, .lost => .raising .streamClosed
  | .reading, .bad e => .raising e
  | .reading, .ack => .closing
  | .raising _, .go => .closing
  | .closing, .go => .clearing
  | .clearing, .go => .over
  | pc, _ => pc

theorem io_step (s : FineTcp B T) (ev : IoEv B) : (s.ioStep ev).io = pcStep s.io ev := by
  obtain ⟨excs, outer, inner, inbox, posted, io⟩ := s
  cases io <;> cases ev <;> rfl

theorem io_run (evs : List (IoEv B)) : ∀ s : FineTcp B T, (s.ioRun evs).io = evs.foldl pcStep s.io := by
  induction evs with
  | nil => intro s; rfl
  | cons ev evs ih => intro s; rw [ioRun_cons, ih, io_step, List.foldl_cons]

theorem gone_pc (evs : List (IoEv B)) (pc : IoPc) (h : Gone evs) : evs.foldl pcStep pc = .over := by
  have := gone_over evs (⟨[], true, true, [], [], pc⟩ : FineTcp B Unit) h
  rwa [io_run] at this

/-- The state after a call of `get_message` that did not raise. -/
theorem get_io {c r k : List (IoEv B)} {x : Option (ServerMsg B)} {s' : FineTcp B T} (h : s.get c r k = (.ok x, s')) :
    s'.io = (c ++ r ++ k).foldl pcStep s.io ∧ s'.excs = (s.ioRun (c ++ r ++ k)).excs ∧
      (∃ pre, s.ioRun (c ++ r ++ k) = { s' with inbox := pre ++ s'.inbox }) := by
  rw [← io_run, ioRun_append, ioRun_append]
  rcases get_cases s c r k with ⟨e, x, g1, g2⟩ | ⟨g1, g2, g3⟩ | ⟨g1, g2, g3, g4⟩ | ⟨m, x, g1, g2, g3, g4⟩
  · rw [g2] at h; cases h
  · rw [g3] at h; cases h
  · rw [g4] at h; cases h; exact ⟨rfl, rfl, [], rfl⟩
  · rw [g4] at h
    cases h
    refine ⟨rfl, rfl, [m], ?_⟩
    dsimp only
    rw [List.singleton_append, ← g3]

theorem sound_inbox (h : Sound s) (x : List (ServerMsg B)) : Sound { s with inbox := x } := ⟨h.1, h.2, h.3⟩

theorem get_sound (hs : Sound s) {c r k : List (IoEv B)} {x : Option (ServerMsg B)} {s' : FineTcp B T}
    (h : s.get c r k = (.ok x, s')) : Sound s' := by
  obtain ⟨_, _, pre, h3⟩ := get_io h
  have := sound_inbox (sound_run (c ++ r ++ k) hs) s'.inbox
  rwa [h3] at this

/-- When `_receive` has returned, `send_message` raises. -/
theorem send_over (hs : Sound s) {c : List (IoEv B)} (h : (s.ioRun c).io = .over) (m : ClientMsg B T)
    (r a i : List (IoEv B)) : ∃ e s', s.send m c r a i = (.error e, s') ∧ Sound s' ∧ s'.io = .over := by
  have hsc := sound_run c hs
  cases he : (s.ioRun c).excs with
  | cons e x => exact ⟨e, _, send_exc m he r a i, ⟨hsc.1, hsc.2, hsc.3⟩, h⟩
  | nil =>
    refine ⟨.notConnected, s.ioRun c, ?_, hsc, h⟩
    rw [send_gone m he (by rw [over_run r h]; exact hsc.outer.2 h), over_run r h]

/-- When `_receive` has returned, `get_message` raises. -/
theorem get_over (hs : Sound s) {c : List (IoEv B)} (h : (s.ioRun c).io = .over) (r k : List (IoEv B)) :
    ∃ e s', s.get c r k = (.error e, s') := by
  have hsc := sound_run c hs
  cases he : (s.ioRun c).excs with
  | cons e x => exact ⟨e, _, get_exc he r k⟩
  | nil => exact ⟨.notConnected, _, get_gone he (by rw [over_run r h]; exact hsc.outer.2 h) k⟩

/-- `disconnect` does not wait for ever. -/
theorem bye_some (pc : IoPc) (h : List (IoEv B)) (d1 d2 d3 : List (IoEv B)) : ∀ (waits : List (List (IoEv B)))
    (s : FineTcp B T), Sound s → s.io = h.foldl pcStep pc → Gone (h ++ waits.flatten) →
    s.bye d1 d2 d3 waits ≠ none := by
  intro waits s hs hio hg
  unfold bye
  dsimp only
  split
  · simp
  · cases hp : (s.ioRun d1).post .disconnect d2 d3 with
    | mk r s' =>
      cases r with
      | error e => simp
      | ok u =>
        simp only [ne_eq, Option.map_eq_none_iff]
        have hs' : Sound s' ∧ s'.io = (h ++ (d1 ++ d2 ++ d3)).foldl pcStep pc := by
          unfold post at hp
          dsimp only at hp
          split at hp
          · cases hp
          · split at hp
            · cases hp
            · cases hp
              have hx := sound_run d3 (sound_run d2 (sound_run d1 hs))
              refine ⟨⟨hx.1, hx.2, hx.3⟩, ?_⟩
              simp only [List.foldl_append, io_run, hio]
        obtain ⟨hs1, hs2⟩ := hs'
        have hg' : Gone ((h ++ (d1 ++ d2 ++ d3)) ++ waits.flatten) := by
          refine List.Sublist.trans hg (List.Sublist.append ?_ (List.Sublist.refl _))
          exact List.sublist_append_left _ _
        clear hp hio hg
        revert hs2 hg'
        generalize h ++ (d1 ++ d2 ++ d3) = h'
        induction waits generalizing s' h' with
        | nil =>
          intro hs2 hg' hn
          unfold awaitBye at hn
          rw [List.flatten_nil, List.append_nil] at hg'
          rw [hs1.outer.2 (by rw [hs2]; exact gone_pc _ _ hg')] at hn
          cases hn
        | cons w ws ih =>
          intro hs2 hg' hn
          unfold awaitBye at hn
          split at hn
          · refine ih (s'.ioRun w) (sound_run w hs1) (h' ++ w) ?_ ?_ hn
            · rw [io_run, List.foldl_append, hs2]
            · rw [List.append_assoc]; exact hg'
          · cases hn

/-- The client does not wait for ever. -/
theorem await_ends (d : ByeEnv B) (pc : IoPc) (g : GetEnv B) (gs' : List (GetEnv B)) : ∀ (gs : List (GetEnv B))
    (h : List (IoEv B)) (s : FineTcp B T), Sound s → s.io = h.foldl pcStep pc → Gone (h ++ gs.flatMap GetEnv.all) →
    await d s (gs ++ g :: gs') ≠ .waiting := by
  intro gs
  induction gs with
  | nil =>
    intro h s hs hio hg hn
    rw [List.flatMap_nil, List.append_nil] at hg
    have hov : s.io = .over := by rw [hio]; exact gone_pc _ _ hg
    obtain ⟨e, s', h1⟩ := get_over hs (c := g.check) (by rw [over_run _ hov]; exact hov) g.read g.take
    rw [List.nil_append] at hn
    unfold await at hn
    rw [h1] at hn
    cases e <;> cases hn
  | cons f gs ih =>
    intro h s hs hio hg hn
    rw [List.cons_append] at hn
    unfold await at hn
    cases hx : s.get f.check f.read f.take with
    | mk r s' =>
      rw [hx] at hn
      cases r with
      | error e => cases e <;> cases hn
      | ok x =>
        have hs' := get_sound hs hx
        have hio' : s'.io = (h ++ f.all).foldl pcStep pc := by
          rw [(get_io hx).1, List.foldl_append (l := h), hio]; rfl
        have hg' : Gone ((h ++ f.all) ++ gs.flatMap GetEnv.all) := by
          rw [List.append_assoc]
          rwa [List.flatMap_cons] at hg
        cases x with
        | none => exact ih _ s' hs' hio' hg' hn
        | some m =>
          cases m with
          | sendBlock b => cases hn
          | other => cases hn
          | requestShutdown =>
            dsimp only at hn
            have hb := bye_some pc _ d.read d.again d.inner ((gs ++ g :: gs').map GetEnv.all) s' hs' hio' (by
              refine List.Sublist.trans hg' (List.Sublist.append (List.Sublist.refl _) ?_)
              rw [List.map_append, List.flatten_append, ← List.flatMap_def]
              exact List.sublist_append_left _ _)
            split at hn
            · next hbb => exact hb hbb
            · cases hn
            · cases hn

theorem send_sound (hs : Sound s) {m : ClientMsg B T} {c r a i : List (IoEv B)} {x : Except ClientErr Unit}
    {s' : FineTcp B T} (h : s.send m c r a i = (x, s')) : Sound s' := by
  have h1 := sound_run c hs
  have h2 := sound_run r h1
  have h3 := sound_run a h2
  have h4 := sound_run i h3
  cases he : (s.ioRun c).excs with
  | cons e y => rw [send_exc m he] at h; cases h; exact ⟨h1.1, h1.2, h1.3⟩
  | nil =>
    cases ho : ((s.ioRun c).ioRun r).outer with
    | false => rw [send_gone m he ho] at h; cases h; exact h2
    | true =>
      rw [send_post m he ho] at h
      cases ho2 : (((s.ioRun c).ioRun r).ioRun a).outer with
      | false => rw [post_raises m ho2] at h; cases h; exact h3
      | true =>
        cases hi : ((((s.ioRun c).ioRun r).ioRun a).ioRun i).inner with
        | false => rw [post_closed m ho2 hi] at h; cases h; exact h4
        | true => rw [post_ok m ho2 hi] at h; cases h; exact ⟨h4.1, h4.2, h4.3⟩

theorem await_sound (d : ByeEnv B) : ∀ (gs : List (GetEnv B)) (s : FineTcp B T), Sound s → ∀ {b : B} {s' : FineTcp B T},
    await d s gs = .block b s' → Sound s' := by
  intro gs
  induction gs with
  | nil => intro s _ b s' h; cases h
  | cons g gs ih =>
    intro s hs b s' h
    unfold await at h
    cases hx : s.get g.check g.read g.take with
    | mk r s1 =>
      rw [hx] at h
      cases r with
      | error e => cases e <;> cases h
      | ok x =>
        have hs1 := get_sound hs hx
        cases x with
        | none => exact ih s1 hs1 h
        | some m =>
          cases m with
          | sendBlock b' => cases h; exact hs1
          | other => cases h
          | requestShutdown => dsimp only at h; split at h <;> cases h

theorem enter_sound {t : T} {e : SendEnv B} {gs : List (GetEnv B)} {d : ByeEnv B} {b : B} {s' : FineTcp B T}
    (hs : Sound s) (h : s.enter t e gs d = .block b s') : Sound s' := by
  unfold enter at h
  cases hsend : s.send (.acquire t) e.check e.read e.again e.inner with
  | mk r s1 =>
    rw [hsend] at h
    cases r with
    | error x => cases h
    | ok v => exact await_sound d gs s1 (send_sound hs hsend) h

/-! ## A server that vanishes -/

/-- The exception is in the queue exactly if it was put there, and it is the proper one. -/
structure Books (s : FineTcp B T) : Prop where
  sound : Sound s
  raising : ∀ e, s.io = .raising e → e = .streamClosed
  excs : (s.excs = [] ∧ 3 ≤ IoPc.left s.io) ∨ (s.excs = [.streamClosed] ∧ IoPc.left s.io ≤ 2)
  proper : .other ∉ s.inbox

theorem books_up (h : Alive s) (hi : .other ∉ s.inbox) : Books s := by
  refine ⟨sound_up h, fun e he => ?_, Or.inl ⟨h.excs, ?_⟩, hi⟩
  · rw [h.io] at he; cases he
  · rw [h.io]; simp [IoPc.left]

theorem books_step {ev : IoEv B} (hev : ev = .lost ∨ ev = .go ∨ ∃ m, m ≠ .other ∧ ev = .recv m) (h : Books s) :
    Books (s.ioStep ev) := by
  have hs := sound_step ev h.sound
  obtain ⟨excs, outer, inner, inbox, posted, io⟩ := s
  obtain ⟨h1, h2, h3, h4⟩ := h
  dsimp only at h2 h3 h4
  refine ⟨hs, ?_, ?_, ?_⟩
  · rcases hev with rfl | rfl | ⟨m, hm, rfl⟩ <;> cases io <;> simp_all [ioStep]
  · rcases hev with rfl | rfl | ⟨m, hm, rfl⟩ <;> cases io <;> simp_all [ioStep, IoPc.left]
  · rcases hev with rfl | rfl | ⟨m, hm, rfl⟩ <;> cases io <;> simp_all [ioStep]
    exact fun h => hm h.symm

theorem books_run : ∀ {evs : List (IoEv B)} {s : FineTcp B T}, Calm evs → Books s → Books (s.ioRun evs)
  | [], _, _, h => h
  | ev :: evs, _, hu, h => books_run (evs := evs) (fun x hx => hu x (List.mem_cons_of_mem _ hx))
      (books_step (hu ev List.mem_cons_self) h)

theorem io_recv : ∀ {evs : List (IoEv B)} (s : FineTcp B T), OnlyRecv evs → (s.ioRun evs).io = s.io
  | [], _, _ => rfl
  | ev :: evs, s, hu => by
    rw [ioRun_cons, io_recv (evs := evs) _ (fun x hx => hu x (List.mem_cons_of_mem _ hx))]
    obtain ⟨m, rfl⟩ := hu ev List.mem_cons_self
    obtain ⟨excs, outer, inner, inbox, posted, io⟩ := s
    cases io <;> rfl

/-- If `get_message` is not interrupted between looking for exceptions and for the stream, it raises nothing but the
exception of a lost connection. -/
theorem get_calm (hb : Books s) {c r k : List (IoEv B)} (hc : Calm c) (hr : Calm r) (hk : Calm k) (hq : OnlyRecv r) :
    (∃ s', s.get c r k = (.error .streamClosed, s')) ∨
    ∃ x s', s.get c r k = (.ok x, s') ∧ Books s' ∧ x ≠ some .other := by
  have hbc := books_run hc hb
  have hbr := books_run hr hbc
  have hbk := books_run hk hbr
  rcases get_cases s c r k with ⟨e, x, g1, g2⟩ | ⟨g1, g2, g3⟩ | ⟨g1, g2, g3, g4⟩ | ⟨m, x, g1, g2, g3, g4⟩
  · left
    rcases hbc.excs with h | h
    · rw [h.1] at g1; cases g1
    · rw [h.1] at g1; cases g1
      exact ⟨_, g2⟩
  · exfalso
    have h1 := hbr.sound.outer.1 g2
    rw [io_recv _ hq] at h1
    rcases hbc.excs with h | h
    · rw [h1] at h; simp [IoPc.left] at h
    · rw [g1] at h; cases h.1
  · exact Or.inr ⟨none, _, g4, hbk, by simp⟩
  · refine Or.inr ⟨some m, _, g4, ⟨⟨hbk.1.1, hbk.1.2, hbk.1.3⟩, hbk.2, hbk.3, ?_⟩, ?_⟩
    · intro hm
      exact hbk.4 (by rw [g3]; exact List.mem_cons_of_mem _ hm)
    · rintro h
      cases h
      exact hbk.4 (by rw [g3]; exact List.mem_cons_self)

theorem await_calm (d : ByeEnv B) : ∀ (gs : List (GetEnv B)) (s : FineTcp B T), Books s →
    (∀ g ∈ gs, Calm g.check ∧ Calm g.read ∧ Calm g.take ∧ OnlyRecv g.read) → ∀ {e : ClientErr} {s' : FineTcp B T},
    await d s gs = .raises e s' → ∃ (s0 : FineTcp B T) (waits : List (List (IoEv B))),
      s0.bye d.read d.again d.inner waits = some (.error e, s') := by
  intro gs
  induction gs with
  | nil => intro s _ _ e s' h; cases h
  | cons g gs ih =>
    intro s hb hg e s' h
    obtain ⟨h1, h2, h3, h4⟩ := hg g List.mem_cons_self
    unfold await at h
    rcases get_calm hb h1 h2 h3 h4 with ⟨s1, hx⟩ | ⟨x, s1, hx, hb1, hno⟩
    · rw [hx] at h; cases h
    · rw [hx] at h
      cases x with
      | none => exact ih s1 hb1 (fun f hf => hg f (List.mem_cons_of_mem _ hf)) h
      | some m =>
        cases m with
        | sendBlock b => cases h
        | other => exact absurd rfl hno
        | requestShutdown =>
          dsimp only at h
          split at h
          · cases h
          · next hbb => cases h; exact ⟨s1, _, hbb⟩
          · cases h

/-! ## The steps of `Model/Client` -/

theorem same_net {c : TcpClient B T} (h : Same s c) (ev : NetEv B) : Same (s.ioRun (expand ev)) (c.net ev) := by
  obtain ⟨excs, outer, inner, inbox, posted, io⟩ := s
  obtain ⟨excs', connected, writable, inbox', outbox⟩ := c
  obtain ⟨h1, h2, h3, h4, h5, h6⟩ := h
  dsimp only at h1 h2 h3 h4 h5 h6
  subst h1 h2 h4 h5 h6
  cases ev with
  | fails e =>
    unfold expand
    cases outer with
    | true => by_cases he : e = .streamClosed <;> simp only [he, if_true, if_false] <;>
        constructor <;> simp [ioRun, ioStep, TcpClient.net]
    | false => by_cases he : e = .streamClosed <;> simp only [he, if_true, if_false] <;>
        constructor <;> simp [ioRun, ioStep, TcpClient.net]
  | arrives m => cases outer <;> constructor <;> simp_all [ioRun, expand, ioStep, TcpClient.net]
  | ack => cases outer <;> constructor <;> simp [ioRun, expand, ioStep, TcpClient.net]
  | writeFails => cases outer <;> constructor <;> simp [ioRun, expand, ioStep, TcpClient.net]

theorem same_nets : ∀ (evs : List (NetEv B)) {s : FineTcp B T} {c : TcpClient B T}, Same s c →
    Same (s.ioRun (evs.flatMap expand)) (evs.foldl TcpClient.net c)
  | [], _, _, h => h
  | ev :: evs, s, c, h => by
    rw [List.flatMap_cons, ioRun_append, List.foldl_cons]
    exact same_nets evs (same_net h ev)

/-- Calls that are not interrupted: the same result and the same state. -/
def SameResult {α : Type} : Except ClientErr α × FineTcp B T → Except (ClientErr × TcpClient B T) (α × TcpClient B T) → Prop
  | (.error e, s), .error (e', c) => e = e' ∧ Same s c
  | (.ok x, s), .ok (x', c) => x = x' ∧ Same s c
  | _, _ => False

theorem same_send {c : TcpClient B T} (evs : List (NetEv B)) (h : Same s c) (m : ClientMsg B T) :
    SameResult (s.send m (sendAtOnce evs).check (sendAtOnce evs).read (sendAtOnce evs).again (sendAtOnce evs).inner)
      (((evs.foldl TcpClient.net c).send m).map (fun c => ((), c))) := by
  have h' := same_nets evs h
  unfold sendAtOnce
  dsimp only
  revert h'
  unfold send
  generalize s.ioRun (evs.flatMap expand) = s'
  generalize evs.foldl TcpClient.net c = c'
  intro h'
  obtain ⟨excs, outer, inner, inbox, posted, io⟩ := s'
  obtain ⟨excs', connected, writable, inbox', outbox⟩ := c'
  obtain ⟨h1, h2, h3, h4, h5, h6⟩ := h'
  dsimp only at h1 h2 h3 h4 h5 h6
  subst h1 h2 h4 h5 h6
  cases excs with
  | cons e r => exact ⟨rfl, ⟨rfl, rfl, h3, rfl, rfl, rfl⟩⟩
  | nil =>
    cases outer with
    | false => exact ⟨rfl, ⟨rfl, rfl, h3, rfl, rfl, rfl⟩⟩
    | true =>
      have hi := h3 rfl
      subst hi
      cases inner with
      | false => exact ⟨rfl, ⟨rfl, rfl, fun _ => rfl, rfl, rfl, rfl⟩⟩
      | true => exact ⟨rfl, ⟨rfl, rfl, fun _ => rfl, rfl, rfl, rfl⟩⟩

theorem same_get {c : TcpClient B T} (evs : List (NetEv B)) (h : Same s c) :
    SameResult (s.get (getAtOnce evs).check (getAtOnce evs).read (getAtOnce evs).take)
      (evs.foldl TcpClient.net c).getMessage := by
  have h' := same_nets evs h
  unfold getAtOnce
  dsimp only
  revert h'
  unfold get
  generalize s.ioRun (evs.flatMap expand) = s'
  generalize evs.foldl TcpClient.net c = c'
  intro h'
  obtain ⟨excs, outer, inner, inbox, posted, io⟩ := s'
  obtain ⟨excs', connected, writable, inbox', outbox⟩ := c'
  obtain ⟨h1, h2, h3, h4, h5, h6⟩ := h'
  dsimp only at h1 h2 h3 h4 h5 h6
  subst h1 h2 h4 h5 h6
  cases excs with
  | cons e r => exact ⟨rfl, ⟨rfl, rfl, h3, rfl, rfl, rfl⟩⟩
  | nil =>
    cases outer with
    | false => exact ⟨rfl, ⟨rfl, rfl, h3, rfl, rfl, rfl⟩⟩
    | true =>
      cases inbox with
      | nil => exact ⟨rfl, ⟨rfl, rfl, h3, rfl, rfl, rfl⟩⟩
      | cons m r => exact ⟨rfl, ⟨rfl, rfl, h3, rfl, rfl, rfl⟩⟩

theorem same_awaitBye : ∀ (envs : List (List (NetEv B))) {s : FineTcp B T} {c : TcpClient B T}, Same s c →
    match s.awaitBye (envs.map (fun evs => evs.flatMap expand)), c.awaitDisconnect envs with
    | none, none => True
    | some s', some c' => Same s' c'
    | _, _ => False
  | [], s, c, h => by
    unfold TcpClient.awaitDisconnect
    rw [List.map_nil]
    unfold awaitBye
    rw [h.outer]
    cases hc : c.connected <;> simp [h]
  | evs :: envs, s, c, h => by
    unfold TcpClient.awaitDisconnect
    rw [List.map_cons]
    unfold awaitBye
    rw [h.outer]
    cases hc : c.connected with
    | false => simp [h]
    | true => simpa using same_awaitBye envs (same_nets evs h)

theorem same_bye {c : TcpClient B T} (envs : List (List (NetEv B))) (h : Same s c) :
    match s.bye [] [] [] (envs.map (fun evs => evs.flatMap expand)), c.disconnect envs with
    | none, none => True
    | some (.ok (), s'), some (.ok c') => Same s' c'
    | some (.error e, s'), some (.error (e', c')) => e = e' ∧ Same s' c'
    | _, _ => False := by
  obtain ⟨excs, outer, inner, inbox, posted, io⟩ := s
  obtain ⟨excs', connected, writable, inbox', outbox⟩ := c
  obtain ⟨h1, h2, h3, h4, h5, h6⟩ := h
  dsimp only at h1 h2 h3 h4 h5 h6
  subst h1 h2 h4 h5 h6
  cases outer with
  | false => exact ⟨rfl, rfl, h3, rfl, rfl, rfl⟩
  | true =>
    have hi := h3 rfl
    subst hi
    cases inner with
    | false => exact ⟨rfl, ⟨rfl, rfl, fun _ => rfl, rfl, rfl, rfl⟩⟩
    | true =>
      have h' : Same (⟨excs, true, true, inbox, posted ++ [.disconnect], .reading⟩ : FineTcp B T)
          ⟨excs, true, true, inbox, posted ++ [.disconnect]⟩ := ⟨rfl, rfl, fun _ => rfl, rfl, rfl, rfl⟩
      have hx := same_awaitBye envs h'
      have e1 : bye (⟨excs, true, true, inbox, posted, .reading⟩ : FineTcp B T) [] [] []
          (envs.map (fun evs => evs.flatMap expand)) =
          (awaitBye (⟨excs, true, true, inbox, posted ++ [.disconnect], .reading⟩ : FineTcp B T)
            (envs.map (fun evs => evs.flatMap expand))).map (fun s'' => (.ok (), s'')) := rfl
      have e2 : TcpClient.disconnect (⟨excs, true, true, inbox, posted⟩ : TcpClient B T) envs =
          (TcpClient.awaitDisconnect (⟨excs, true, true, inbox, posted ++ [.disconnect]⟩ : TcpClient B T) envs).map
            .ok := rfl
      simp only [if_true] at e1 ⊢
      rw [e1, e2]
      generalize awaitBye _ _ = x at hx ⊢
      generalize TcpClient.awaitDisconnect _ _ = y at hx ⊢
      cases x <;> cases y <;> exact hx

theorem same_await : ∀ (envs : List (List (NetEv B))) {s : FineTcp B T} {c : TcpClient B T}, Same s c →
    SameEntered (await byeAtOnce s (envs.map getAtOnce)) (Client.await c envs)
  | [], _, _, _ => trivial
  | evs :: envs, s, c, h => by
    rw [List.map_cons]
    unfold await Client.await
    have hg := same_get evs h
    revert hg
    rcases s.get (getAtOnce evs).check (getAtOnce evs).read (getAtOnce evs).take with ⟨r, s'⟩
    rcases (evs.foldl TcpClient.net c).getMessage with ⟨e', c'⟩ | ⟨x', c'⟩
    · cases r with
      | ok x => exact fun h => h.elim
      | error e =>
        rintro ⟨rfl, hs⟩
        cases e <;> first | exact hs | exact ⟨rfl, hs⟩
    · cases r with
      | error e => exact fun h => h.elim
      | ok x =>
        rintro ⟨rfl, hs⟩
        cases x with
        | none => exact same_await envs hs
        | some m =>
          cases m with
          | sendBlock b => exact ⟨rfl, hs⟩
          | other => exact ⟨rfl, hs⟩
          | requestShutdown =>
            have hb := same_bye envs hs
            have e : (envs.map getAtOnce).map GetEnv.all = envs.map (fun evs => evs.flatMap expand) := by
              rw [List.map_map]
              refine List.map_congr_left fun x _ => ?_
              simp [getAtOnce, GetEnv.all]
            simp only [byeAtOnce, e]
            generalize bye _ _ _ _ _ = x at hb ⊢
            generalize TcpClient.disconnect _ _ = y at hb ⊢
            rcases x with _ | ⟨_ | _, s''⟩ <;> rcases y with _ | ⟨e', c''⟩ | c'' <;> exact hb

theorem same_finish {c : TcpClient B T} (evs : List (NetEv B)) (h : Same s c) (b : B) (st : StatusVal)
    (pe : Option ClientErr) : (s.finish b st pe (sendAtOnce evs)).1 =
        (Client.finish (evs.foldl TcpClient.net c) b st pe).1 ∧
      Same (s.finish b st pe (sendAtOnce evs)).2 (Client.finish (evs.foldl TcpClient.net c) b st pe).2 := by
  unfold finish Client.finish
  dsimp only
  have hs := same_send evs h (.release b (if st ≠ .enum .success then .enum .failed else st))
  revert hs
  rcases s.send _ (sendAtOnce evs).check (sendAtOnce evs).read (sendAtOnce evs).again (sendAtOnce evs).inner with ⟨_ | _, s'⟩ <;>
    rcases (evs.foldl TcpClient.net c).send _ with ⟨e', c'⟩ | c' <;> intro hs
  · obtain ⟨rfl, hs⟩ := hs; exact ⟨rfl, hs⟩
  · exact hs.elim
  · exact hs.elim
  · exact ⟨rfl, hs.2⟩

end Verif.FineTcp
