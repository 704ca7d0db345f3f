import Verif.Props.ServerStop
import Verif.Props.Serial

/-! # `init_callback_fn`: C96 -/

namespace Verif

open Spec

variable {N T K S : Type} [DecidableEq N] [DecidableEq T] [DecidableEq K] [DecidableEq S]
  {g : DGraph N T K} {cfg : SConf T} {σ σ' : Server N T K S} {ks : List (Server.Tick N T S)}

/-- When workers were recruited for a task, its start had been announced and its callback had been called. -/
def CalledBefore (out : List (Out N T S)) : Prop :=
  ∀ pre ts post, out = pre ++ .recruit ts :: post → ∀ t ∈ ts, .callback t ∈ pre ∧ .taskStart t ∈ pre

omit [DecidableEq N] [DecidableEq T] [DecidableEq S] in
theorem CalledBefore.append {out os : List (Out N T S)} (h : CalledBefore out) (ho : ∀ ts, .recruit ts ∉ os) :
    CalledBefore (out ++ os) := by
  intro pre ts post he
  rcases split_cases he with ⟨post', h1⟩ | ⟨pre', _, h2⟩
  · exact h pre ts post' h1
  · exact absurd (by rw [h2]; simp) (ho ts)

theorem CalledBefore.recruit (h : CalledBefore σ.out) (ha : Announced σ) : CalledBefore (σ.recruit g).out := by
  obtain ⟨_, _, _, a4, os, a5, a6, _⟩ := recruit_spec (g := g) σ
  have ha' := ha.recruit (g := g)
  have hno : ∀ ts, .recruit ts ∉ os := by
    intro ts hm
    obtain ⟨t', _, h | h⟩ := a6 _ hm <;> cases h
  rw [a5]
  intro pre ts post he
  rcases split_cases he with ⟨post', h1⟩ | ⟨pre', h1, h2⟩
  · exact h.append hno pre ts post' h1
  · cases pre' with
    | cons x xs =>
      rw [List.cons_append] at h2
      have := congrArg List.length h2
      simp at this
    | nil =>
      rw [List.nil_append, List.cons.injEq] at h2
      obtain ⟨h2, rfl⟩ := h2
      cases h2
      intro t ht
      have hs : t ∈ (σ.recruit g).started := (a4 t).2 (Or.inr ht)
      have h3 := ha'.callback t
      have h4 := ha'.start t
      rw [if_pos hs, a5, List.count_append] at h3 h4
      simp only [List.count_singleton, beq_iff_eq, reduceCtorEq, if_false, Nat.add_zero] at h3 h4
      rw [h1, List.append_nil]
      exact ⟨List.count_pos_iff.1 (by omega), List.count_pos_iff.1 (by omega)⟩

theorem CalledBefore.checkAll (h : CalledBefore σ.out) : CalledBefore (σ.checkAll g).out := by
  obtain ⟨_, _, _, os, a4, a5, _⟩ := checkAll_spec (g := g) σ
  rw [a4]
  refine h.append ?_
  intro ts hm
  obtain ⟨t', h⟩ := a5 _ hm
  cases h

/-- C96: whenever the server recruits workers for a task, the callback of the task has been called before. -/
theorem C96_before_workers (hg : g.Loose) (h : SRun g cfg ks σ) {pre post : List (Out N T S)} {ts : List T}
    (ho : σ.out = pre ++ .recruit ts :: post) {t : T} (ht : t ∈ ts) : .callback t ∈ pre ∧ .taskStart t ∈ pre := by
  suffices hc : CalledBefore σ.out from hc pre ts post ho t ht
  have : Announced σ ∧ CalledBefore σ.out := by
    refine h.induct hg (P := fun σ => Announced σ ∧ CalledBefore σ.out) ?_ ?_
    · have h0 : Announced (⟨Sched.init g, [], [], [], false, false, fun _ => [], []⟩ : Server N T K S) := by
        refine ⟨?_, ?_, ?_⟩ <;> intro t <;> simp
      exact ⟨h0.recruit, CalledBefore.recruit (fun pre ts post he => by simp at he) h0⟩
    · intro a b _ _ hm ih
      obtain ⟨ia, ic⟩ := ih
      have hsk : ∀ (l : List N) (o : Out N T S), o ∈ l.map .skip → Plain o := by
        intro l o ho
        obtain ⟨x, _, rfl⟩ := List.mem_map.1 ho
        trivial
      cases hm with
      | @send chk t s n skips st' bk h hn ht =>
        refine ⟨ia.append (os := skips.map .skip ++ [.send s n, .acquired t]) (by simp) ?_ rfl rfl, ?_⟩
        · intro o ho
          rcases List.mem_append.1 ho with ho | ho
          · exact hsk _ o ho
          · simp only [List.mem_cons, List.not_mem_nil, or_false] at ho
            rcases ho with rfl | rfl <;> trivial
        · show CalledBefore (a.out ++ skips.map .skip ++ [.send s n, .acquired t])
          exact (ic.append (by simp)).append (by simp)
      | @shut chk t s skips st' h h1 h2 =>
        have hA : Announced { a with sched := st', out := a.out ++ skips.map .skip ++ [.shutdown s t] } := by
          refine ia.append (os := skips.map .skip ++ [.shutdown s t]) (by simp) ?_ rfl rfl
          intro o ho
          rcases List.mem_append.1 ho with ho | ho
          · exact hsk _ o ho
          · rw [List.mem_singleton] at ho
            subst ho; trivial
        exact ⟨hA.recruit, CalledBefore.recruit ((ic.append (by simp)).append (by simp)) hA⟩
      | @delay chk t skips st' p h h1 h2 =>
        exact ⟨ia.append rfl (hsk _) rfl rfl, ic.append (by simp)⟩
      | @rel pick n status st' hn hs h =>
        have hA : Announced { a with sched := st', out := a.out ++ [.release n status, .released (g.task n)] } := by
          refine ia.append rfl ?_ rfl rfl
          intro o ho
          simp only [List.mem_cons, List.not_mem_nil, or_false] at ho
          rcases ho with rfl | rfl <;> trivial
        exact ⟨hA.checkAll.recruit, CalledBefore.recruit (CalledBefore.checkAll (ic.append (by simp))) hA.checkAll⟩
      | check => exact ⟨ia.checkAll, ic.checkAll⟩
      | fail n w =>
        refine ⟨ia.append (os := [.blockFailure n w]) rfl ?_ rfl rfl, ic.append (by simp)⟩
        intro o ho
        rw [List.mem_singleton] at ho
        subst ho; trivial
      | book bk => exact ⟨ia.append (os := []) (by simp) (by simp) rfl rfl, ic⟩
      | pop p => exact ⟨ia.append (os := []) (by simp) (by simp) rfl rfl, ic⟩
  exact this.2

/-- C96: the callback of a task has been called exactly once if workers have been recruited for the task, and not at
all otherwise. -/
theorem C96_once (hg : g.Loose) (h : SRun g cfg ks σ) (t : T) :
    (Recruited σ t → σ.out.count (.callback t) = 1) ∧ (¬ Recruited σ t → .callback t ∉ σ.out) := by
  have h1 := (h.announced hg).callback t
  have h2 := h.recruited hg t
  constructor
  · intro hr
    rw [h1, if_pos (h2.2 hr)]
  · intro hr hm
    rw [if_neg (fun hs => hr (h2.1 hs))] at h1
    exact List.count_eq_zero.1 h1 hm

example : ∃ (σ : Server (Fin 4) (Fin 2) (Fin 4) Nat) (ks : List (Server.Tick (Fin 4) (Fin 2) Nat)),
    Ex.vee.OK ∧ SRun Ex.vee Ex.veeConf ks σ ∧ .recruit [1] ∈ σ.out ∧ .recruit [0] ∈ σ.out ∧
    2 ≤ σ.out.count (.recruit [1]) ∧ σ.out.count (.callback 1) = 1 ∧
    σ.out.take 3 = [.taskStart 0, .callback 0, .recruit [0]] := by
  have hx : (sexec Ex.vee Ex.veeConf (ticks [acq 0 7, acq 0 8, bad 0 7, ret 1 8, acq 0 7, ret 0 7,
      acq 1 9, ret 3 9, acq 1 9, ret 2 9])).map (fun σ => decide (.recruit [1] ∈ σ.out ∧ .recruit [0] ∈ σ.out ∧
      2 ≤ σ.out.count (.recruit [1]) ∧ σ.out.count (.callback 1) = 1 ∧
      σ.out.take 3 = [.taskStart 0, .callback 0, .recruit [0]])) =
      some true := by decide +kernel
  obtain ⟨σ, h, e⟩ := sexec_run (ticks_legal _) _ hx
  exact ⟨σ, _, Ex.vee_ok, h, of_decide_eq_true e⟩

/-! ### The serial server -/

variable {served : List T} {τ : Serial N T K} {js : List (SerTick N T)}

/-- C96 for the serial server: a block is processed only after the callback of its task. -/
def C96_serial_statement : Prop :=
  ∀ (N T K : Type) [DecidableEq N] [DecidableEq T] [DecidableEq K] (g : DGraph N T K) (served : List T)
    (js : List (SerTick N T)) (τ : Serial N T K), g.OK → SerRun g served js τ →
    ∀ n, .call n ∈ τ.out → .callback (g.task n) ∈ τ.out

/-- The serial server never calls a callback. -/
theorem C96_serial_never (hg : g.Loose) (h : SerRun g served js τ) (t : T) : .callback t ∉ τ.out := by
  induction h with
  | init => simp [Serial.init]
  | @pass ks σ σ' k h he hpick hp ih =>
    rcases pass_cases hg (h.inv hg) he hpick with ⟨σ1, sk, h1, h2⟩ | ⟨sk, m, st, _, _, h1 | h1 | ⟨σ1, h1, h2⟩⟩
    · rw [h1] at hp; cases hp
      rw [h2.out]
      simp [ih]
    · rw [h1.2] at hp; cases hp
    · rw [h1.2.2] at hp; cases hp
    · rw [h1] at hp; cases hp
      obtain ⟨s, d, e, h3, h4, h5, h6⟩ := h2.out
      have hs : .callback t ∉ s := by rw [h4]; split <;> simp
      have hd : .callback t ∉ d := by rw [h5]; split <;> simp
      have he : .callback t ∉ e := by rw [h6]; split <;> simp
      rw [h3]
      simp [ih, hs, hd, he]

/-- C96 is false with the serial server (`run_blockwise(..., multiprocessing=False)`): the process function runs, the
callback does not. -/
theorem C96_serial_false : ¬ C96_serial_statement := by
  intro hC
  have hx : (serExec Ex.vee [1, 0] (List.replicate 1 (serTick pickMin))).map
      (fun σ => decide (.call 0 ∈ σ.out)) = some true := by decide +kernel
  obtain ⟨σ, h1, h2⟩ := serExec_run (by
    intro k hk
    rw [List.eq_of_mem_replicate hk]
    exact pickMin_legal) _ hx
  exact C96_serial_never Ex.vee_ok h1 _ (hC _ _ _ Ex.vee [1, 0] _ σ Ex.vee_ok h1 0 (of_decide_eq_true h2))

end Verif
