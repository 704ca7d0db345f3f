import Verif.Spec.PoolSpec

set_option linter.unusedSectionVars false

namespace Verif

open Spec

/-- Workers are in the order they were started; the counter is above all of them. -/
def Pool.OK (next : Nat) (p : Pool) : Prop :=
  p.workers.Pairwise (fun v w => v.id < w.id) ∧ ∀ w ∈ p.workers, w.id < next

namespace Pool

theorem OK.mono {next next' : Nat} {p : Pool} (h : p.OK next) (hn : next ≤ next') : p.OK next' :=
  ⟨h.1, fun w hw => lt_of_lt_of_le (h.2 w hw) hn⟩

theorem put_fresh {ws : List Worker} {w : Worker} (h : ∀ v ∈ ws, v.id ≠ w.id) : put ws w = ws ++ [w] := by
  unfold put
  rw [if_neg]
  intro hc
  obtain ⟨v, hv, he⟩ := List.any_eq_true.1 hc
  exact h v hv (of_decide_eq_true he)

theorem foldl_put_fresh : ∀ (new ws : List Worker), (∀ v ∈ ws, ∀ w ∈ new, v.id ≠ w.id) →
    new.Pairwise (fun v w => v.id ≠ w.id) → new.foldl put ws = ws ++ new
  | [], ws, _, _ => by simp
  | w :: new, ws, h, hn => by
    rw [List.foldl_cons, put_fresh (fun v hv => h v hv w List.mem_cons_self)]
    rw [List.pairwise_cons] at hn
    rw [foldl_put_fresh new _ _ hn.2]
    · simp
    · intro v hv x hx
      rcases List.mem_append.1 hv with hv | hv
      · exact h v hv x (List.mem_cons_of_mem _ hx)
      · rw [List.mem_singleton] at hv; subst hv; exact hn.1 x hx

theorem mem_newWorkers {next n : Nat} {w : Worker} (h : w ∈ newWorkers next n) :
    next ≤ w.id ∧ w.id < next + n ∧ w.proc = some .running := by
  obtain ⟨i, hi, rfl⟩ := List.mem_map.1 h
  rw [List.mem_range] at hi
  exact ⟨by simp, by simpa using hi, rfl⟩

theorem newWorkers_length (next n : Nat) : (newWorkers next n).length = n := by simp [newWorkers]

theorem newWorkers_pairwise (next n : Nat) : (newWorkers next n).Pairwise (fun v w => v.id < w.id) := by
  unfold newWorkers
  rw [List.pairwise_map]
  exact List.pairwise_lt_range.imp (fun h => by simpa using h)

theorem start_workers {p : Pool} {next n : Nat} (h : p.OK next) :
    (p.start next n).1.workers = p.workers ++ newWorkers next n := by
  unfold start
  refine foldl_put_fresh _ _ ?_ ((newWorkers_pairwise next n).imp (fun h => by omega))
  intro v hv w hw
  have := h.2 v hv
  have := mem_newWorkers hw
  omega

theorem start_ok {p : Pool} {next n : Nat} (h : p.OK next) : (p.start next n).1.OK (next + n) := by
  constructor
  · rw [start_workers h, List.pairwise_append]
    refine ⟨h.1, newWorkers_pairwise next n, fun v hv w hw => ?_⟩
    have := h.2 v hv
    have := mem_newWorkers hw
    omega
  · rw [start_workers h]
    intro w hw
    rcases List.mem_append.1 hw with hw | hw
    · have := h.2 w hw; omega
    · have := mem_newWorkers hw; omega

theorem ids_inj {ws : List Worker} (h : ws.Pairwise (fun v w => v.id < w.id)) {v w : Worker} (hv : v ∈ ws)
    (hw : w ∈ ws) (he : v.id = w.id) : v = w := by
  induction ws with
  | nil => simp at hv
  | cons x xs ih =>
    rw [List.pairwise_cons] at h
    rcases List.mem_cons.1 hv with rfl | hv'
    · rcases List.mem_cons.1 hw with rfl | hw'
      · rfl
      · have := h.1 w hw'; omega
    · rcases List.mem_cons.1 hw with rfl | hw'
      · have := h.1 v hv'; omega
      · exact ih h.2 hv' hw'

theorem stopN_workers {p : Pool} {next n : Nat} (h : p.OK next) (h0 : 0 < n) (_hn : n ≤ p.workers.length) :
    (p.stopN n).1.workers = p.workers.take (p.workers.length - n) := by
  unfold stopN lastN
  dsimp only
  rw [if_neg (by omega), List.length_map, ← List.map_drop]
  generalize hk : p.workers.length - n = k
  have hsplit := List.take_append_drop k p.workers
  have hpw := h.1
  rw [← hsplit, List.pairwise_append] at hpw
  have e : p.workers.filter (fun w => w.id ∉ (p.workers.drop k).map (·.id)) =
      (p.workers.take k ++ p.workers.drop k).filter (fun w => w.id ∉ (p.workers.drop k).map (·.id)) := by
    rw [hsplit]
  rw [e, List.filter_append]
  rw [List.filter_eq_self.2, List.filter_eq_nil_iff.2, List.append_nil]
  · intro w hw
    simp only [decide_eq_true_eq, not_not]
    exact List.mem_map.2 ⟨w, hw, rfl⟩
  · intro w hw
    simp only [decide_eq_true_eq]
    intro hc
    obtain ⟨v, hv, he⟩ := List.mem_map.1 hc
    have := hpw.2.2 w hw v hv
    omega

theorem setNum_cases {p : Pool} {next n : Nat} (h : p.OK next) :
    (p.workers.length < n ∧ (p.setNum next n).1.workers = p.workers ++ newWorkers next (n - p.workers.length) ∧
      (p.setNum next n).2 = next + (n - p.workers.length)) ∨
    (n ≤ p.workers.length ∧ (p.setNum next n).1.workers = p.workers.take n ∧ (p.setNum next n).2 = next) := by
  unfold setNum
  split
  · rename_i hlt
    exact Or.inl ⟨hlt, start_workers h, rfl⟩
  · rename_i hlt
    right
    split
    · rename_i hgt
      refine ⟨by omega, ?_, rfl⟩
      rw [stopN_workers h (by omega) (by omega)]
      congr 1
      omega
    · exact ⟨by omega, by rw [List.take_of_length_le (by omega)], rfl⟩

theorem setNum_next_le (p : Pool) (next n : Nat) : next ≤ (p.setNum next n).2 := by
  unfold setNum start
  split
  · simp
  · split <;> simp

theorem setNum_ok {p : Pool} {next n : Nat} (h : p.OK next) : (p.setNum next n).1.OK (p.setNum next n).2 := by
  by_cases hlt : p.workers.length < n
  · unfold setNum
    rw [if_pos hlt]
    exact start_ok h
  · rcases setNum_cases (n := n) h with ⟨h1, _⟩ | ⟨_, h2, h3⟩
    · omega
    · rw [h3]
      constructor
      · rw [h2]; exact h.1.sublist (List.take_sublist _ _)
      · rw [h2]; exact fun w hw => h.2 w (List.mem_of_mem_take hw)

theorem setNum_length {p : Pool} {next n : Nat} (h : p.OK next) : (p.setNum next n).1.workers.length = n := by
  rcases setNum_cases (n := n) h with ⟨h1, h2, _⟩ | ⟨h1, h2, _⟩
  · rw [h2, List.length_append, newWorkers_length]; omega
  · rw [h2, List.length_take]; omega

theorem stop_workers (p : Pool) (id : Nat) : (p.stop id).workers = p.workers.filter (fun w => w.id ≠ id) := by
  unfold stop
  split
  · rfl
  · rename_i h
    rw [List.filter_eq_self.2]
    intro w hw
    rw [decide_eq_true_iff]
    intro e
    exact h (List.any_eq_true.2 ⟨w, hw, by simpa using e⟩)

theorem stop_ok {p : Pool} {next : Nat} (h : p.OK next) (id : Nat) : (p.stop id).OK next := by
  constructor
  · rw [stop_workers]; exact h.1.filter _
  · rw [stop_workers]; exact fun w hw => h.2 w (List.mem_filter.1 hw).1

theorem forget_id (w : Worker) : (forget w).id = w.id := by unfold forget; split <;> rfl

theorem reap_workers {p : Pool} {next : Nat} (h : p.OK next) :
    p.reap.1.workers = (p.workers.filter (fun w => !failed w)).map forget ∧
      p.reap.2 = (p.workers.filter failed).length := by
  unfold reap
  dsimp only
  refine ⟨?_, by simp⟩
  rw [List.filter_map]
  congr 1
  apply List.filter_congr
  intro w hw
  simp only [Function.comp, forget_id]
  rw [Bool.eq_iff_iff, decide_eq_true_iff, Bool.not_eq_true', List.mem_map]
  constructor
  · intro hn
    by_contra hf
    exact hn ⟨w, List.mem_filter.2 ⟨hw, by simpa using hf⟩, rfl⟩
  · rintro hf ⟨v, hv, he⟩
    rw [List.mem_filter] at hv
    rw [ids_inj h.1 hv.1 hw he] at hv
    simp [hf] at hv

theorem reap_ok {p : Pool} {next : Nat} (h : p.OK next) : p.reap.1.OK next := by
  constructor
  · rw [(reap_workers h).1, List.pairwise_map]
    exact (h.1.filter _).imp (fun hlt => by rw [forget_id, forget_id]; exact hlt)
  · rw [(reap_workers h).1]
    intro w hw
    obtain ⟨v, hv, rfl⟩ := List.mem_map.1 hw
    rw [forget_id]
    exact h.2 v (List.mem_filter.1 hv).1

end Pool

namespace Pools

variable {T : Type} [DecidableEq T]

/-- One pool of a health check. -/
def healthPool (p : Pool) (next : Nat) : Pool × Nat :=
  let p : Pool := { p with errors := p.errors.tail }
  if 0 < p.reap.2 then p.reap.1.start next p.reap.2 else (p.reap.1, next)

theorem healthPool_workers {p : Pool} {next : Nat} (h : p.OK next) :
    (healthPool p next).1.workers = (p.workers.filter (fun w => !Pool.failed w)).map Pool.forget ++
      Pool.newWorkers next (p.workers.filter Pool.failed).length ∧
    (healthPool p next).2 = next + (p.workers.filter Pool.failed).length := by
  have h' : Pool.OK next ({ p with errors := p.errors.tail } : Pool) := h
  obtain ⟨h1, h2⟩ := Pool.reap_workers h'
  unfold healthPool
  dsimp only
  rw [h2]
  split
  · rw [Pool.start_workers (Pool.reap_ok h'), h1]
    exact ⟨rfl, rfl⟩
  · rename_i h0
    dsimp only at h0
    rw [show (p.workers.filter Pool.failed).length = 0 by omega]
    simp [h1, Pool.newWorkers]

theorem healthPool_ok {p : Pool} {next : Nat} (h : p.OK next) :
    (healthPool p next).1.OK (healthPool p next).2 := by
  have h' : Pool.OK next ({ p with errors := p.errors.tail } : Pool) := h
  unfold healthPool
  dsimp only
  split
  · exact Pool.start_ok (Pool.reap_ok h')
  · exact Pool.reap_ok h'

theorem healthPool_length {p : Pool} {next : Nat} (h : p.OK next) :
    (healthPool p next).1.workers.length = p.workers.length := by
  rw [(healthPool_workers h).1, List.length_append, List.length_map, Pool.newWorkers_length]
  have := List.length_eq_length_filter_add (l := p.workers) Pool.failed
  omega

/-- A pass over the pools that threads the counter of ids. -/
def thread (f : T → Pool → Nat → Pool × Nat) : List (T × Pool) → Nat → List (T × Pool) × Nat
  | [], next => ([], next)
  | (t, p) :: r, next =>
    ((t, (f t p next).1) :: (thread f r (f t p next).2).1, (thread f r (f t p next).2).2)

/-- New workers get fresh ids. -/
def Good (f : T → Pool → Nat → Pool × Nat) : Prop :=
  ∀ t p a, p.OK a → a ≤ (f t p a).2 ∧ (f t p a).1.OK (f t p a).2 ∧
    ∀ w ∈ (f t p a).1.workers, w.id < a → ∃ v ∈ p.workers, v.id = w.id

theorem thread_keys (f : T → Pool → Nat → Pool × Nat) : ∀ (l : List (T × Pool)) (a : Nat),
    (thread f l a).1.map (·.1) = l.map (·.1)
  | [], _ => rfl
  | (t, p) :: r, a => by
    unfold thread
    rw [List.map_cons, List.map_cons, thread_keys f r]

theorem thread_le {f : T → Pool → Nat → Pool × Nat} (hf : Good f) : ∀ (l : List (T × Pool)) (a : Nat),
    (∀ e ∈ l, e.2.OK a) → a ≤ (thread f l a).2
  | [], _, _ => le_refl _
  | (t, p) :: r, a, h => by
    have h1 := hf t p a (h _ List.mem_cons_self)
    have := thread_le hf r (f t p a).2
      (fun e he => (h e (List.mem_cons_of_mem _ he)).mono h1.1)
    exact le_trans h1.1 this

theorem thread_mem {f : T → Pool → Nat → Pool × Nat} (hf : Good f) : ∀ (l : List (T × Pool)) (a : Nat),
    (∀ e ∈ l, e.2.OK a) → ∀ t p', (t, p') ∈ (thread f l a).1 → ∃ p b, (t, p) ∈ l ∧ a ≤ b ∧ p.OK b ∧
      p' = (f t p b).1 ∧ (f t p b).2 ≤ (thread f l a).2
  | [], _, _, t, p', hm => by simp [thread] at hm
  | (t0, p0) :: r, a, h, t, p', hm => by
    have h0 := h _ List.mem_cons_self
    have h1 := hf t0 p0 a h0
    have hr : ∀ e ∈ r, e.2.OK (f t0 p0 a).2 := fun e he => (h e (List.mem_cons_of_mem _ he)).mono h1.1
    unfold thread at hm ⊢
    rcases List.mem_cons.1 hm with he | hm
    · cases he
      exact ⟨p0, a, List.mem_cons_self, le_refl _, h0, rfl, thread_le hf r _ hr⟩
    · obtain ⟨p, b, hp, hab, hok, he, hle⟩ := thread_mem hf r _ hr t p' hm
      exact ⟨p, b, List.mem_cons_of_mem _ hp, le_trans h1.1 hab, hok, he, hle⟩

theorem thread_mem' {f : T → Pool → Nat → Pool × Nat} (hf : Good f) : ∀ (l : List (T × Pool)) (a : Nat),
    (∀ e ∈ l, e.2.OK a) → ∀ t p, (t, p) ∈ l → ∃ b, a ≤ b ∧ p.OK b ∧
      (t, (f t p b).1) ∈ (thread f l a).1 ∧ (f t p b).2 ≤ (thread f l a).2
  | [], _, _, t, p, hm => by simp at hm
  | (t0, p0) :: r, a, h, t, p, hm => by
    have h0 := h _ List.mem_cons_self
    have h1 := hf t0 p0 a h0
    have hr : ∀ e ∈ r, e.2.OK (f t0 p0 a).2 := fun e he => (h e (List.mem_cons_of_mem _ he)).mono h1.1
    unfold thread
    rcases List.mem_cons.1 hm with he | hm
    · cases he
      exact ⟨a, le_refl _, h0, List.mem_cons_self, thread_le hf r _ hr⟩
    · obtain ⟨b, hab, hok, hmem, hle⟩ := thread_mem' hf r _ hr t p hm
      exact ⟨b, le_trans h1.1 hab, hok, List.mem_cons_of_mem _ hmem, hle⟩

/-- The invariant of all pools together. -/
def OK (l : List (T × Pool)) (a : Nat) : Prop :=
  (l.map (·.1)).Nodup ∧ (∀ e ∈ l, e.2.OK a) ∧
    l.Pairwise (fun e g => ∀ v ∈ e.2.workers, ∀ w ∈ g.2.workers, v.id ≠ w.id)

theorem thread_ok {f : T → Pool → Nat → Pool × Nat} (hf : Good f) : ∀ (l : List (T × Pool)) (a0 a : Nat),
    a0 ≤ a → OK l a0 → OK (thread f l a).1 (thread f l a).2
  | [], a0, a, _, h => ⟨List.nodup_nil, by simp [thread], List.Pairwise.nil⟩
  | (t0, p0) :: r, a0, a, hle, h => by
    have h0 := (h.2.1 _ List.mem_cons_self).mono hle
    have h1 := hf t0 p0 a h0
    have hpw := List.pairwise_cons.1 h.2.2
    have hr0 : OK r a0 := ⟨by have := h.1; rw [List.map_cons, List.nodup_cons] at this; exact this.2,
      fun e he => h.2.1 e (List.mem_cons_of_mem _ he), hpw.2⟩
    have hr : ∀ e ∈ r, e.2.OK (f t0 p0 a).2 :=
      fun e he => (hr0.2.1 e he).mono (le_trans hle h1.1)
    have ih := thread_ok hf r a0 (f t0 p0 a).2 (le_trans hle h1.1) hr0
    refine ⟨by rw [thread_keys]; exact h.1, ?_, ?_⟩
    · unfold thread
      intro e he
      rcases List.mem_cons.1 he with rfl | he
      · exact h1.2.1.mono (thread_le hf r _ hr)
      · exact ih.2.1 e he
    · unfold thread
      refine List.pairwise_cons.2 ⟨?_, ih.2.2⟩
      rintro ⟨t, p'⟩ he v hv w hw hvw
      obtain ⟨p, b, hp, hab, hok, hpe, -⟩ := thread_mem hf r _ hr t p' he
      have hvb : v.id < (f t0 p0 a).2 := h1.2.1.2 v hv
      change w ∈ p'.workers at hw
      subst hpe
      obtain ⟨w', hw', hwe⟩ := (hf t p b hok).2.2 w hw (by omega)
      have hwa : w'.id < a0 := (hr0.2.1 _ hp).2 w' hw'
      obtain ⟨v', hv', hve⟩ := h1.2.2 v hv (by omega)
      exact hpw.1 _ hp v' hv' w' hw' (by omega)

theorem recruitLoop_eq (num : T → Nat) (ready : List T) : ∀ (l : List (T × Pool)) (a : Nat),
    recruitLoop num ready l a = thread (fun t p a => if t ∈ ready then p.setNum a (num t) else (p, a)) l a
  | [], _ => rfl
  | (t, p) :: r, a => by
    unfold recruitLoop thread
    by_cases h : t ∈ ready
    · simp only [h, if_true]
      rw [recruitLoop_eq num ready r]
    · simp only [h, if_false]
      rw [recruitLoop_eq num ready r]

theorem healthLoop_eq : ∀ (l : List (T × Pool)) (a : Nat) (x : List (T × Pool) × Nat),
    healthLoop l a = .ok x → x = thread (fun _ p a => healthPool p a) l a ∧
      ∀ e ∈ l, ∀ y, e.2.errors.head? = some y → y = .queueEmpty
  | [], a, x, h => by
    unfold healthLoop at h
    cases h
    exact ⟨rfl, by simp⟩
  | (t, p) :: r, a, x, h => by
    unfold healthLoop at h
    have he : ∀ y, p.errors.head? = some y → y = .queueEmpty := by
      intro y hy
      cases hp : p.errors with
      | nil => rw [hp] at hy; cases hy
      | cons e es =>
        rw [hp] at hy
        cases hy
        by_contra hne
        simp [Pool.checkErrors, hp, hne] at h
    have hc : p.checkErrors = .ok { p with errors := p.errors.tail } := by
      unfold Pool.checkErrors
      cases hp : p.errors with
      | nil => obtain ⟨ws, es⟩ := p; cases hp; rfl
      | cons e es =>
        rw [hp] at he
        simp [he e rfl]
    rw [hc] at h
    dsimp only at h
    have e2 : (if 0 < ({ p with errors := p.errors.tail } : Pool).reap.2 then
        ({ p with errors := p.errors.tail } : Pool).reap.1.start a ({ p with errors := p.errors.tail } : Pool).reap.2
        else (({ p with errors := p.errors.tail } : Pool).reap.1, a)) = healthPool p a := rfl
    rw [e2] at h
    split at h
    · cases h
    · rename_i r' n' hr
      cases h
      obtain ⟨hx, hes⟩ := healthLoop_eq r _ _ hr
      refine ⟨?_, ?_⟩
      · unfold thread
        rw [← hx]
      · intro e hm
        rcases List.mem_cons.1 hm with rfl | hm
        · exact he
        · exact hes e hm

theorem map_thread_same (g : T → Pool → Pool) : ∀ (l : List (T × Pool)) (a : Nat),
    (l.map (fun e => (e.1, g e.1 e.2)), a) = thread (fun t p a => (g t p, a)) l a
  | [], _ => rfl
  | (t, p) :: r, a => by
    unfold thread
    dsimp only
    rw [← map_thread_same g r a]
    rfl

theorem good_setNum (num : T → Nat) (ready : List T) :
    Good (fun t p a => if t ∈ ready then p.setNum a (num t) else (p, a)) := by
  intro t p a h
  dsimp only
  split
  · refine ⟨Pool.setNum_next_le _ _ _, Pool.setNum_ok h, fun w hw hlt => ?_⟩
    rcases Pool.setNum_cases (n := num t) h with ⟨_, h2, _⟩ | ⟨_, h2, _⟩
    · rw [h2] at hw
      rcases List.mem_append.1 hw with hw | hw
      · exact ⟨w, hw, rfl⟩
      · have := Pool.mem_newWorkers hw; omega
    · rw [h2] at hw
      exact ⟨w, List.mem_of_mem_take hw, rfl⟩
  · exact ⟨le_refl _, h, fun w hw _ => ⟨w, hw, rfl⟩⟩

theorem good_health : Good (fun (_ : T) p a => healthPool p a) := by
  intro t p a h
  dsimp only
  obtain ⟨h1, h2⟩ := healthPool_workers h
  refine ⟨by omega, healthPool_ok h, fun w hw hlt => ?_⟩
  rw [h1] at hw
  rcases List.mem_append.1 hw with hw | hw
  · obtain ⟨v, hv, rfl⟩ := List.mem_map.1 hw
    exact ⟨v, (List.mem_filter.1 hv).1, (Pool.forget_id v).symm⟩
  · have := Pool.mem_newWorkers hw; omega

theorem good_restart (t0 : T) (id : Nat) :
    Good (fun t p a => if t = t0 then (p.stop id).start a 1 else (p, a)) := by
  intro t p a h
  dsimp only
  split
  · refine ⟨Nat.le_succ _, Pool.start_ok (Pool.stop_ok h id), fun w hw hlt => ?_⟩
    rw [Pool.start_workers (Pool.stop_ok h id), Pool.stop_workers] at hw
    rcases List.mem_append.1 hw with hw | hw
    · exact ⟨w, (List.mem_filter.1 hw).1, rfl⟩
    · have := Pool.mem_newWorkers hw; omega
  · exact ⟨le_refl _, h, fun w hw _ => ⟨w, hw, rfl⟩⟩

theorem good_same {g : T → Pool → Pool} (hg : ∀ t p, (g t p).workers.map (·.id) = p.workers.map (·.id)) :
    Good (fun t p a => (g t p, a)) := by
  intro t p a h
  have hmem : ∀ w ∈ (g t p).workers, ∃ v ∈ p.workers, v.id = w.id := by
    intro w hw
    have : w.id ∈ (g t p).workers.map (·.id) := List.mem_map.2 ⟨w, hw, rfl⟩
    rw [hg] at this
    exact List.mem_map.1 this
  refine ⟨le_refl _, ⟨?_, ?_⟩, fun w hw _ => hmem w hw⟩
  · have h1 := h.1
    have e : ∀ ws : List Worker, ws.Pairwise (fun v w => v.id < w.id) ↔ (ws.map (·.id)).Pairwise (· < ·) :=
      fun ws => List.pairwise_map.symm
    rw [e] at h1 ⊢
    rw [hg]
    exact h1
  · intro w hw
    obtain ⟨v, hv, he⟩ := hmem w hw
    rw [← he]
    exact h.2 v hv

/-- What an exiting process does to its pool. -/
def exitPool (t0 : T) (id : Nat) (code : Int) (t : T) (p : Pool) : Pool :=
  if t = t0 then ⟨p.workers.map (fun w =>
    if w.id = id ∧ w.proc = some .running then ⟨w.id, some (.exited code)⟩ else w), p.errors⟩ else p

theorem exitPool_ids (t0 : T) (id : Nat) (code : Int) (t : T) (p : Pool) :
    (exitPool t0 id code t p).workers.map (·.id) = p.workers.map (·.id) := by
  unfold exitPool
  split
  · rw [List.map_map]
    apply List.map_congr_left
    intro w _
    simp only [Function.comp]
    split <;> rfl
  · rfl

/-- What a reported exception does to its pool. -/
def reportPool (t0 : T) (e : PyErr) (t : T) (p : Pool) : Pool :=
  if t = t0 then { p with errors := p.errors ++ [e] } else p

theorem reportPool_workers (t0 : T) (e : PyErr) (t : T) (p : Pool) :
    (reportPool t0 e t p).workers = p.workers := by
  unfold reportPool
  split <;> rfl

theorem exit_eq (ps : Pools T) (t0 : T) (id : Nat) (code : Int) :
    ((ps.exit t0 id code).pools, (ps.exit t0 id code).next) =
      thread (fun t p a => (exitPool t0 id code t p, a)) ps.pools ps.next := by
  rw [← map_thread_same (exitPool t0 id code)]
  unfold exit
  dsimp only
  congr 1
  apply List.map_congr_left
  rintro ⟨t, p⟩ _
  unfold exitPool
  dsimp only
  split
  · rename_i h; rw [h]
  · rfl

theorem report_eq (ps : Pools T) (t0 : T) (e : PyErr) :
    ((ps.report t0 e).pools, (ps.report t0 e).next) =
      thread (fun t p a => (reportPool t0 e t p, a)) ps.pools ps.next := by
  rw [← map_thread_same (reportPool t0 e)]
  unfold report
  dsimp only
  congr 1
  apply List.map_congr_left
  rintro ⟨t, p⟩ _
  unfold reportPool
  dsimp only
  split
  · rename_i h; rw [h]
  · rfl

theorem thread_skip (f : T → Pool → Nat → Pool × Nat) : ∀ (l : List (T × Pool)) (a : Nat),
    (∀ e ∈ l, ∀ b, f e.1 e.2 b = (e.2, b)) → thread f l a = (l, a)
  | [], _, _ => rfl
  | (t, p) :: r, a, h => by
    have h0 := h (t, p) List.mem_cons_self a
    unfold thread
    dsimp only at h0
    rw [h0, thread_skip f r a (fun e he => h e (List.mem_cons_of_mem _ he))]

theorem restart_eq (t0 : T) (id : Nat) : ∀ (l : List (T × Pool)) (a : Nat) (p : Pool), (l.map (·.1)).Nodup →
    (t0, p) ∈ l →
    (l.map (fun e => if e.1 = t0 then (t0, ((p.stop id).start a 1).1) else e), a + 1) =
      thread (fun t p a => if t = t0 then (p.stop id).start a 1 else (p, a)) l a
  | [], _, p, _, hm => by simp at hm
  | (t, q) :: r, a, p, hnd, hm => by
    rw [List.map_cons, List.nodup_cons] at hnd
    unfold thread
    rcases List.mem_cons.1 hm with he | hm
    · cases he
      have hr : ∀ e ∈ r, e.1 ≠ t0 := fun e he hc => hnd.1 (List.mem_map.2 ⟨e, he, hc⟩)
      rw [if_pos rfl, thread_skip _ r _ (fun e he b => by rw [if_neg (hr e he)])]
      rw [List.map_cons, if_pos rfl]
      congr 2
      conv_rhs => rw [← List.map_id r]
      exact List.map_congr_left (fun e he => by rw [if_neg (hr e he)]; rfl)
    · have hne : t ≠ t0 := fun hc => hnd.1 (List.mem_map.2 ⟨_, hm, hc.symm⟩)
      rw [if_neg hne, ← restart_eq t0 id r a p hnd.2 hm, List.map_cons, if_neg hne]

theorem get_mem {ps : Pools T} {t : T} {p : Pool} (h : ps.get t = some p) : (t, p) ∈ ps.pools := by
  unfold get at h
  cases hf : ps.pools.find? (fun e => e.1 = t) with
  | none => rw [hf] at h; cases h
  | some e =>
    rw [hf] at h
    obtain ⟨t', p'⟩ := e
    cases h
    have h1 := List.find?_some hf
    have h2 := List.mem_of_find?_eq_some hf
    have h3 : t' = t := by simpa using h1
    subst h3
    exact h2

/-- How the step transforms one pool. -/
def stepFun (num : T → Nat) (maxF : Nat) (ps : Pools T) : PoolEv T → T → Pool → Nat → Pool × Nat
  | .recruit ready => fun t p a => if t ∈ ready then p.setNum a (num t) else (p, a)
  | .health => fun _ p a => healthPool p a
  | .failure t0 id => fun t p a =>
      if maxF < ps.counts t0 id + 1 then (if t = t0 then (p.stop id).start a 1 else (p, a)) else (p, a)
  | .exit t0 id code => fun t p a => (exitPool t0 id code t p, a)
  | .report t0 e => fun t p a => (reportPool t0 e t p, a)

theorem good_stepFun (num : T → Nat) (maxF : Nat) (ps : Pools T) (e : PoolEv T) :
    Good (stepFun num maxF ps e) := by
  cases e with
  | recruit ready => exact good_setNum num ready
  | health => exact good_health
  | failure t0 id =>
    unfold stepFun
    by_cases h : maxF < ps.counts t0 id + 1
    · simp only [h, if_true]; exact good_restart t0 id
    · simp only [h, if_false]; exact good_same (g := fun _ p => p) (fun _ _ => rfl)
  | exit t0 id code => exact good_same (exitPool_ids t0 id code)
  | report t0 e => exact good_same (fun t p => by rw [reportPool_workers])

theorem step_thread {num : T → Nat} {maxF : Nat} {ps ps' : Pools T} {e : PoolEv T}
    (hnd : (ps.pools.map (·.1)).Nodup) (h : poolStep num maxF ps e = .ok ps') :
    (ps'.pools, ps'.next) = thread (stepFun num maxF ps e) ps.pools ps.next := by
  cases e with
  | recruit ready =>
    simp only [poolStep] at h
    cases h
    unfold recruit stepFun
    rw [← recruitLoop_eq]
  | health =>
    simp only [poolStep] at h
    unfold health at h
    split at h
    · cases h
    · rename_i l next hl
      cases h
      exact (healthLoop_eq _ _ _ hl).1
  | failure t0 id =>
    simp only [poolStep] at h
    unfold onBlockFailure at h
    unfold stepFun
    dsimp only at h
    split at h
    · rename_i hlt
      split at h
      · cases h
      · rename_i p hp
        cases h
        simp only [hlt, if_true]
        exact restart_eq t0 id ps.pools ps.next p hnd (get_mem hp)
    · rename_i hlt
      cases h
      simp only [hlt, if_false]
      exact (thread_skip _ _ _ (fun _ _ _ => rfl)).symm
  | exit t0 id code => simp only [poolStep] at h; cases h; exact exit_eq _ _ _ _
  | report t0 e => simp only [poolStep] at h; cases h; exact report_eq _ _ _

theorem step_ok {num : T → Nat} {maxF : Nat} {ps ps' : Pools T} {e : PoolEv T} (hok : OK ps.pools ps.next)
    (h : poolStep num maxF ps e = .ok ps') : OK ps'.pools ps'.next := by
  have h1 := step_thread hok.1 h
  have h2 := thread_ok (good_stepFun num maxF ps e) ps.pools ps.next ps.next (le_refl _) hok
  rw [← h1] at h2
  exact h2

theorem init_ok {tasks : List T} (h : tasks.Nodup) : OK (init tasks).pools (init tasks).next := by
  unfold init OK
  dsimp only
  refine ⟨by rw [List.map_map]; simpa [Function.comp_def] using h, ?_, ?_⟩
  · intro e he
    obtain ⟨t, _, rfl⟩ := List.mem_map.1 he
    exact ⟨List.Pairwise.nil, by simp⟩
  · rw [List.pairwise_map]
    exact List.Pairwise.imp_of_mem (R := fun _ _ => True) (fun _ _ _ => by simp) (List.pairwise_of_forall (fun _ _ => trivial))

theorem run_ok {num : T → Nat} {maxF : Nat} {ps ps' : Pools T} {es : List (PoolEv T)}
    (hok : OK ps.pools ps.next) (h : PoolRun num maxF ps es ps') : OK ps'.pools ps'.next := by
  induction h with
  | nil => exact hok
  | snoc _ hs ih => exact step_ok ih hs

/-- A pool after a step comes from a pool before it. -/
theorem step_mem {num : T → Nat} {maxF : Nat} {ps ps' : Pools T} {e : PoolEv T} (hok : OK ps.pools ps.next)
    (h : poolStep num maxF ps e = .ok ps') {t : T} {p' : Pool} (hp : (t, p') ∈ ps'.pools) :
    ∃ p b, (t, p) ∈ ps.pools ∧ ps.next ≤ b ∧ p.OK b ∧ p' = (stepFun num maxF ps e t p b).1 ∧
      (stepFun num maxF ps e t p b).2 ≤ ps'.next := by
  have h1 := step_thread hok.1 h
  have e1 : ps'.pools = (thread (stepFun num maxF ps e) ps.pools ps.next).1 := by rw [← h1]
  have e2 : ps'.next = (thread (stepFun num maxF ps e) ps.pools ps.next).2 := by rw [← h1]
  rw [e1] at hp
  rw [e2]
  exact thread_mem (good_stepFun num maxF ps e) _ _ hok.2.1 t p' hp

theorem step_mem' {num : T → Nat} {maxF : Nat} {ps ps' : Pools T} {e : PoolEv T} (hok : OK ps.pools ps.next)
    (h : poolStep num maxF ps e = .ok ps') {t : T} {p : Pool} (hp : (t, p) ∈ ps.pools) :
    ∃ b, ps.next ≤ b ∧ p.OK b ∧ (t, (stepFun num maxF ps e t p b).1) ∈ ps'.pools ∧
      (stepFun num maxF ps e t p b).2 ≤ ps'.next := by
  have h1 := step_thread hok.1 h
  have e1 : ps'.pools = (thread (stepFun num maxF ps e) ps.pools ps.next).1 := by rw [← h1]
  have e2 : ps'.next = (thread (stepFun num maxF ps e) ps.pools ps.next).2 := by rw [← h1]
  rw [e1, e2]
  exact thread_mem' (good_stepFun num maxF ps e) _ _ hok.2.1 t p hp

theorem step_next_le {num : T → Nat} {maxF : Nat} {ps ps' : Pools T} {e : PoolEv T}
    (hok : OK ps.pools ps.next) (h : poolStep num maxF ps e = .ok ps') : ps.next ≤ ps'.next := by
  have h1 := step_thread hok.1 h
  have e2 : ps'.next = (thread (stepFun num maxF ps e) ps.pools ps.next).2 := by rw [← h1]
  rw [e2]
  exact thread_le (good_stepFun num maxF ps e) _ _ hok.2.1

theorem key_unique {l : List (T × Pool)} (h : (l.map (·.1)).Nodup) {t : T} {p q : Pool} (hp : (t, p) ∈ l)
    (hq : (t, q) ∈ l) : p = q := by
  have := List.inj_on_of_nodup_map h hp hq rfl
  cases this
  rfl

end Pools
end Verif
