import Verif.Proofs.CallbackRaises
import Verif.Props.Shutdown

/-! # Callbacks that raise: C125 -/

set_option linter.unusedSectionVars false

namespace Verif

open Spec PWorld

variable {N T K S O : Type} [DecidableEq N] [DecidableEq T] [DecidableEq K] [DecidableEq S] [DecidableEq O]
  {g : DGraph N T K} {cfg : SConf T} {fails : T → Option PyErr} {σ : Server N T K S} {ks : List (Server.Tick N T S)}
  {num : T → Nat}

/-- C125: if the callback of a task raises, `run_blockwise` raises; no process of a worker is left, the streams are closed,
and the observers are told. -/
def C125_statement : Prop :=
  ∀ (N T K S O : Type) [DecidableEq N] [DecidableEq T] [DecidableEq K] [DecidableEq S] [DecidableEq O]
    (g : DGraph N T K) (cfg : SConf T) (fails : T → Option PyErr) (ks : List (Server.Tick N T S)) (σ : Server N T K S)
    (a : Around O) (num : T → Nat) (es : List (PEv T)) (fuel : Nat) (L : Left T O) (t : T),
    g.OK → SRun g cfg ks σ → Recruited σ t → fails t ≠ none → (∀ i, a.fail i = none) →
    (∀ o ∈ a.observers, QuietObs a.cb o) → a.observers.length < fuel →
    Server.wholeCb g cfg fails ks a fuel num es = some L →
    L.err ≠ none ∧ (∀ i, L.world.os i ≠ some none) ∧ (∀ s ∈ L.streams, s.closed = true) ∧
      ∃ r, L.exit = some r ∧ r.called = a.observers

/-- C125: the server does the same as with callbacks that do not raise, up to the first one that raises: there it stops,
with its exception. -/
theorem C125_cut (h : SRun g cfg ks σ) :
    CutAt fails σ.out (Server.runCb g cfg fails ks).1.out (Server.runCb (K := K) g cfg fails ks).2 ∧
      ((Server.runCb (K := K) g cfg fails ks).2 = none → (Server.runCb g cfg fails ks).1 = σ) :=
  run_follows h

/-- C125: what would have happened later does not matter. -/
theorem C125_over {e : PyErr} (he : (Server.runCb (K := K) g cfg fails ks).2 = some e) (ks' : List (Server.Tick N T S)) :
    Server.runCb (K := K) g cfg fails (ks ++ ks') = Server.runCb g cfg fails ks := by
  have key : ∀ (ks ks' : List (Server.Tick N T S)) (σ : Server N T K S) (e : PyErr),
      (Server.loopCb g cfg fails ks σ).2 = some e →
      Server.loopCb g cfg fails (ks ++ ks') σ = Server.loopCb g cfg fails ks σ := by
    intro ks
    induction ks with
    | nil => intro ks' σ e h; cases h
    | cons k ks ih =>
      intro ks' σ e h
      simp only [List.cons_append, Server.loopCb] at h ⊢
      rcases hi : σ.iterationCb g cfg fails k with ⟨σ', _ | e'⟩
      · rw [hi] at h
        exact ih ks' σ' e h
      · rfl
  unfold Server.runCb at he ⊢
  rcases hi : Server.initCb (S := S) g fails with ⟨σ', _ | e'⟩
  · rw [hi] at he
    exact key ks ks' σ' e he
  · rfl

/-- C125: if the callback of a task for which there would be workers raises, the run is ended by an exception of a
callback. -/
theorem C125_raises (hg : g.Loose) (h : SRun g cfg ks σ) {t : T} (ht : Recruited σ t) (hf : fails t ≠ none) :
    ∃ t' e, fails t' = some e ∧ (Server.runCb (K := K) g cfg fails ks).2 = some e := by
  have hc : .callback t ∈ σ.out := List.count_pos_iff.1 (by rw [(C96_once hg h t).1 ht]; exact Nat.one_pos)
  rcases (C125_cut (fails := fails) h).1 with ⟨_, _, h3⟩ | ⟨pre, t', post, _, _, h3, h4, _⟩
  · exact absurd (h3 t hc) hf
  · obtain ⟨e, he⟩ := Option.ne_none_iff_exists'.1 h4
    exact ⟨t', e, he, by rw [h3, he]⟩

/-- C125: the callback that ends a run was the last thing that the server did, and no workers had been recruited for its
task. -/
theorem C125_no_workers (hg : g.Loose) (h : SRun g cfg ks σ) {e : PyErr}
    (he : (Server.runCb (K := K) g cfg fails ks).2 = some e) :
    ∃ t pre, fails t = some e ∧ (Server.runCb (K := K) g cfg fails ks).1.out = pre ++ [.callback t] ∧
      ∀ ts, .recruit ts ∈ pre → t ∉ ts := by
  rcases (C125_cut (fails := fails) h).1 with ⟨_, h2, _⟩ | ⟨pre, t, post, h1, h2, h3, h4, _⟩
  · rw [he] at h2; cases h2
  · refine ⟨t, pre, by rw [← h3, he], h2, ?_⟩
    intro ts hts ht
    obtain ⟨a, b, rfl⟩ := List.append_of_mem hts
    have h5 := (C96_before_workers hg h (pre := a) (ts := ts) (post := b ++ .callback t :: post) (by rw [h1]; simp) ht).1
    have h6 := (C96_once hg h t).1 ⟨ts, by rw [h1]; simp, ht⟩
    have h7 := List.count_pos_iff.2 h5
    rw [h1] at h6
    simp only [List.count_append, List.count_cons_self] at h6
    omega

/-- C125: the first call of `_recruit_workers` raises exactly if a task that is ready at the start has a callback that
raises. -/
theorem C125_start_iff : (Server.initCb (S := S) g fails).2 ≠ none ↔
    ∃ t ∈ (Sched.init g).getReadyTasks g, fails t ≠ none := by
  have hr := C125_cut (S := S) (fails := fails) (SRun.init (g := g) (cfg := ⟨[], fun _ => none⟩))
  have h1 : Server.runCb g ⟨[], fun _ => none⟩ fails [] = Server.initCb (S := S) g fails := by
    unfold Server.runCb
    rcases h : Server.initCb (S := S) g fails with ⟨σ', _ | e⟩ <;> rfl
  rw [h1] at hr
  obtain ⟨_, _, _, _, os, a5, a6, a7⟩ := recruit_spec (g := g)
    (⟨Sched.init g, [], [], [], false, false, fun _ => [], []⟩ : Server N T K S)
  have ho : (Server.init (S := S) g).out = os ++ [.recruit ((Sched.init g).getReadyTasks g)] := by
    unfold Server.init
    rw [a5]
    rfl
  have hm : ∀ t, .callback t ∈ (Server.init (S := S) g).out ↔ t ∈ (Sched.init g).getReadyTasks g := by
    intro t
    rw [ho]
    constructor
    · intro h
      rcases List.mem_append.1 h with h | h
      · obtain ⟨t', ht', h | h⟩ := a6 _ h
        · cases h
        · cases h; exact ht'
      · simp at h
    · intro h
      have := (a7 t).2
      rw [if_pos ⟨h, by simp⟩] at this
      exact List.mem_append_left _ (List.count_pos_iff.1 (by rw [this]; exact Nat.one_pos))
  rcases hr.1 with ⟨_, b2, b3⟩ | ⟨pre, t, post, b1, _, b3, b4, _⟩
  · rw [b2]
    constructor
    · intro h; exact absurd rfl h
    · rintro ⟨t, ht, h⟩
      exact absurd (b3 t ((hm t).2 ht)) h
  · rw [b3]
    constructor
    · intro _
      exact ⟨t, (hm t).1 (by rw [b1]; simp), b4⟩
    · intro _; exact b4

/-- C125: in this case no process was started, no stream is closed, and nobody is told; the exception is that of a callback
of one of these tasks. -/
theorem C125_start (a : Around O) (fuel : Nat) (es : List (PEv T))
    (hf : ∃ t ∈ (Sched.init g).getReadyTasks g, fails t ≠ none) :
    ∃ t e, fails t = some e ∧ Server.wholeCb g cfg fails ks a fuel num es =
      some ⟨some e, PWorld.init cfg.served, a.streams, none⟩ ∧ ∀ i, (PWorld.init cfg.served).os i = none := by
  obtain ⟨e, he⟩ := Option.ne_none_iff_exists'.1 ((C125_start_iff (S := S)).2 hf)
  have hr := C125_cut (S := S) (fails := fails) (SRun.init (g := g) (cfg := ⟨[], fun _ => none⟩))
  have h1 : Server.runCb g ⟨[], fun _ => none⟩ fails [] = Server.initCb (S := S) g fails := by
    unfold Server.runCb
    rcases h : Server.initCb (S := S) g fails with ⟨σ', _ | e⟩ <;> rfl
  rw [h1, he] at hr
  rcases hr.1 with ⟨_, b2, _⟩ | ⟨pre, t, post, _, _, b3, _, _⟩
  · cases b2
  · refine ⟨t, e, b3.symm, ?_, fun _ => rfl⟩
    unfold Server.wholeCb runServerCb
    rw [he]

private theorem loop_raises {fail : StartFails} (e : PyErr) : ∀ (es : List (PEv T)) (w : PWorld T),
    (loop fail num es (some e) w).err ≠ none
  | [], w => by
    unfold loop
    rcases w.stopAll fail with ⟨_ | e, w'⟩ <;> simp
  | x :: es, w => by
    unfold loop
    rcases w.step fail num x with ⟨_ | e', w'⟩
    · exact loop_raises e es w'
    · simp only
      rcases w'.stopAll fail with ⟨_ | e, w''⟩ <;> simp

private theorem recruits {fail : StartFails} (hf : ∀ i, fail i = none) (served ready : List T) :
    Recruits fail num served ready := by
  have he := each_err (fail := fail) (f := fun t x => if t ∈ ready then setNum fail x (num t) else ⟨none, x⟩)
    (P := fun e next os => Failed fail next e ∧ os (next - 1) = none)
    (fun t x hx => by
      split_ifs
      · exact setNum_step hx _
      · exact same_step hx)
    (fun t x e hx he => by
      split_ifs at he ⊢
      exact setNum_err hx he) (PWorld.init served).pools [] (PWorld.init served).next (PWorld.init served).os _ (init_fits served)
  change ∀ e, ((PWorld.init served).recruit fail num ready).err = some e →
    Failed fail ((PWorld.init served).recruit fail num ready).val.next e ∧ _ at he
  unfold Recruits
  by_contra hc
  obtain ⟨e, h⟩ := Option.ne_none_iff_exists'.1 hc
  obtain ⟨j, _, hj⟩ := (he e h).1
  rw [hf] at hj
  cases hj

/-- C125, partial: the claim holds if the callbacks of the tasks that are ready at the start do not raise.  Missing: it fails
if one of them does (`C125_start`). -/
theorem C125_clean_partial (hg : g.Loose) (h : SRun g cfg ks σ) {t : T} (ht : Recruited σ t) (hf : fails t ≠ none)
    (hs : ∀ u ∈ (Sched.init g).getReadyTasks g, fails u = none) (a : Around O) (fuel : Nat) (es : List (PEv T))
    (ha : ∀ i, a.fail i = none) (hq : ∀ o ∈ a.observers, QuietObs a.cb o) (hl : a.observers.length < fuel) :
    ∃ L, Server.wholeCb g cfg fails ks a fuel num es = some L ∧ L.err ≠ none ∧ (∀ i, L.world.os i ≠ some none) ∧
      (∀ s ∈ L.streams, s.closed = true) ∧ L.exit = some ⟨a.observers, a.observers, none⟩ := by
  obtain ⟨t', e, h1, h2⟩ := C125_raises hg h ht hf
  have h3 : (Server.initCb (S := S) g fails).2 = none := by
    by_contra hc
    obtain ⟨u, hu, hu'⟩ := C125_start_iff.1 hc
    exact hu' (hs u hu)
  have hr : Recruits a.fail num cfg.served ((Sched.init g).getReadyTasks g) := recruits ha _ _
  obtain ⟨L, b1, b2, b3, _, b5, b6⟩ := C104_announced_partial a fuel cfg.served ((Sched.init g).getReadyTasks g) es (some e)
    hq hl hr
  refine ⟨L, ?_, ?_, ?_, b3, b2⟩
  · unfold Server.wholeCb runServerCb
    rw [h3, h2]
    exact b1
  · rw [b5]
    unfold runBlockwise
    rcases (PWorld.init cfg.served).recruit a.fail num ((Sched.init g).getReadyTasks g) with ⟨_ | e', w⟩
    · exact loop_raises e es w
    · simp
  · rw [b6]
    exact C97_partial ha cfg.served _ es (some e)

/-- The second task has a callback that raises, the first one does not: the run ends when the second task gets ready. -/
example : ∃ (σ : Server (Fin 4) (Fin 2) (Fin 4) Nat) (fails : Fin 2 → Option PyErr), Ex.vee.OK ∧
    SRun Ex.vee Ex.veeConf Ex.veeServe σ ∧ Recruited σ 1 ∧ fails 1 = some .valueError ∧
    (∀ u ∈ (Sched.init Ex.vee).getReadyTasks Ex.vee, fails u = none) ∧
    (Server.runCb (K := Fin 4) Ex.vee Ex.veeConf fails Ex.veeServe).2 = some .valueError ∧
    (Server.runCb (K := Fin 4) Ex.vee Ex.veeConf fails Ex.veeServe).1.out =
      [.taskStart 0, .callback 0, .recruit [0], .send 7 0, .acquired 0, .send 8 1, .acquired 0, .release 1 .success,
        .released 0, .taskStart 1, .callback 1] := by
  obtain ⟨σ, h1, h2⟩ := Ex.vee_serve
  refine ⟨σ, fun t => if t = 1 then some .valueError else none, Ex.vee_ok, h1, ⟨[1], ?_, by simp⟩, by decide,
    by decide +kernel, by decide +kernel, by decide +kernel⟩
  have h3 := congrArg Prod.fst h2
  simp only at h3
  rw [h3]
  decide

/-- C125 is false: the callback of the first task raises.  The observers are not told, a stream stays open. -/
theorem C125_false : ¬ C125_statement := by
  intro hC
  obtain ⟨σ, h1, h2⟩ := Ex.vee_serve
  let fails : Fin 2 → Option PyErr := fun t => if t = 0 then some .valueError else none
  obtain ⟨t, e, _, h3, _⟩ := C125_start (S := Nat) (g := Ex.vee) (cfg := Ex.veeConf) (fails := fails) (ks := Ex.veeServe)
    (num := fun _ => 1) { Ex.around with fail := fun _ => none } 3 [] ⟨0, by decide +kernel, by decide⟩
  have hr : Recruited σ 0 := by
    refine ⟨[0], ?_, by simp⟩
    have h3 := congrArg Prod.fst h2
    simp only at h3
    rw [h3]
    decide
  obtain ⟨_, _, _, r, h4, _⟩ := hC _ _ _ _ _ Ex.vee Ex.veeConf fails Ex.veeServe σ _ _ [] 3 _ 0 Ex.vee_ok h1 hr (by decide)
    (fun _ => rfl) (fun o _ => ⟨rfl, rfl⟩) (by decide) h3
  cases h4

end Verif
