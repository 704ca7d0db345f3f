import Verif.Model.Callback
import Verif.Spec.CallbackSpec
import Verif.Props.Callback

/-! # Callbacks that raise -/

set_option linter.unusedSectionVars false

namespace Verif

open Spec

variable {N T K S : Type} [DecidableEq N] [DecidableEq T] [DecidableEq K] [DecidableEq S]
  {g : DGraph N T K} {cfg : SConf T} {fails : T → Option PyErr} {σ σ' : Server N T K S}

/-- The step with callbacks does what the step without does, up to the first callback that raises. -/
def Follows (fails : T → Option PyErr) (σ : Server N T K S) (o : Except PyErr (Server N T K S))
    (r : Server N T K S × Option PyErr) : Prop :=
  ∀ σ', o = .ok σ' → ∃ os cut, σ'.out = σ.out ++ os ∧ r.1.out = σ.out ++ cut ∧ CutAt fails os cut r.2 ∧
    (r.2 = none → r.1 = σ')

theorem follows_plain {os : List (Out N T S)} (ho : σ'.out = σ.out ++ os) (hc : ∀ t, .callback t ∉ os) :
    Follows fails σ (.ok σ') (σ', none) := by
  intro σ1 e
  cases e
  exact ⟨os, os, ho, ho, Or.inl ⟨rfl, rfl, fun t ht => absurd ht (hc t)⟩, fun _ => rfl⟩

theorem follows_error {e : PyErr} {r : Server N T K S × Option PyErr} : Follows fails σ (.error e) r := by
  intro σ' h
  cases h

theorem cutAt_append {fails : T → Option PyErr} {a os cut : List (Out N T S)} {e : Option PyErr} (h : CutAt fails os cut e)
    (ha : ∀ t, .callback t ∈ a → fails t = none) : CutAt fails (a ++ os) (a ++ cut) e := by
  rcases h with ⟨rfl, rfl, h⟩ | ⟨pre, t, post, rfl, rfl, h3, h4, h5⟩
  · exact Or.inl ⟨rfl, rfl, fun t ht => (List.mem_append.1 ht).elim (ha t) (h t)⟩
  · exact Or.inr ⟨a ++ pre, t, post, by simp, by simp, h3, h4, fun t ht => (List.mem_append.1 ht).elim (ha t) (h5 t)⟩

theorem follows_bind {o : Except PyErr (Server N T K S)} {r : Server N T K S × Option PyErr}
    {f : Server N T K S → Except PyErr (Server N T K S)} {fc : Server N T K S → Server N T K S × Option PyErr}
    (h : Follows fails σ o r) (hf : ∀ σ1, o = .ok σ1 → Follows fails σ1 (f σ1) (fc σ1)) :
    Follows fails σ (match (generalizing := false) o with | .error e => .error e | .ok σ1 => f σ1) (Server.andThen r fc) := by
  intro σ2 h2
  cases o with
  | error e => cases h2
  | ok σ1 =>
    simp only at h2
    obtain ⟨os, cut, a1, a2, a3, a4⟩ := h σ1 rfl
    obtain ⟨os', cut', b1, b2, b3, b4⟩ := hf σ1 rfl σ2 h2
    obtain ⟨r1, r2⟩ := r
    rcases a3 with ⟨rfl, hr, c3⟩ | ⟨pre, t, post, rfl, rfl, c3, c4, c5⟩
    · simp only at hr
      subst hr
      have e : r1 = σ1 := a4 rfl
      subst e
      refine ⟨cut ++ os', cut ++ cut', by rw [b1, a1, List.append_assoc], ?_, ?_, ?_⟩
      · simp only [Server.andThen]
        rw [b2, a1, List.append_assoc]
      · exact cutAt_append b3 c3
      · exact b4
    · simp only at c3
      obtain ⟨e, he⟩ := Option.ne_none_iff_exists'.1 c4
      rw [he] at c3
      subst c3
      refine ⟨(pre ++ .callback t :: post) ++ os', pre ++ [.callback t], by rw [b1, a1, List.append_assoc], by simpa [Server.andThen] using a2, ?_, ?_⟩
      · exact Or.inr ⟨pre, t, post ++ os', by simp, rfl, he.symm, by rw [he]; simp, c5⟩
      · intro hc
        cases hc

theorem follows_shift {a : List (Out N T S)} {σ₀ : Server N T K S} (h0 : σ.out = σ₀.out ++ a) (ha : ∀ t, .callback t ∉ a)
    {o : Except PyErr (Server N T K S)} {r : Server N T K S × Option PyErr} (h : Follows fails σ o r) :
    Follows fails σ₀ o r := by
  intro σ' ho
  obtain ⟨os, cut, a1, a2, a3, a4⟩ := h σ' ho
  exact ⟨a ++ os, a ++ cut, by rw [a1, h0, List.append_assoc], by rw [a2, h0, List.append_assoc],
    cutAt_append a3 (fun t ht => absurd ht (ha t)), a4⟩

theorem recruitLoop_follows : ∀ (l : List T) (σ : Server N T K S), Follows fails σ
    (.ok (l.foldl (fun σ t => if t ∈ σ.started then σ
      else { (σ.emit [.taskStart t, .callback t]) with started := σ.started ++ [t] }) σ))
    (Server.recruitLoop fails l σ)
  | [], σ => follows_plain (os := []) (by simp) (by simp)
  | t :: l, σ => by
    rw [List.foldl_cons]
    unfold Server.recruitLoop
    by_cases ht : t ∈ σ.started
    · rw [if_pos ht, if_pos ht]
      exact recruitLoop_follows l σ
    · rw [if_neg ht, if_neg ht]
      simp only
      have ih := recruitLoop_follows l
        ({ (σ.emit [.taskStart t, .callback t]) with started := σ.started ++ [t] } : Server N T K S)
      intro σ' h'
      obtain ⟨os, cut, a1, a2, a3, a4⟩ := ih σ' h'
      have ho : σ'.out = σ.out ++ ([.taskStart t, .callback t] ++ os) := by
        rw [a1, ← List.append_assoc]; rfl
      cases hf : fails t with
      | some e =>
        refine ⟨[.taskStart t, .callback t] ++ os, [.taskStart t, .callback t], ho, rfl, ?_, by simp⟩
        exact Or.inr ⟨[.taskStart t], t, os, rfl, rfl, hf.symm, by rw [hf]; simp, by simp⟩
      | none =>
        refine ⟨[.taskStart t, .callback t] ++ os, [.taskStart t, .callback t] ++ cut, ho, ?_, ?_, a4⟩
        · simp only
          rw [a2, ← List.append_assoc]; rfl
        · exact cutAt_append a3 (by simp [hf])

theorem recruit_follows (σ : Server N T K S) : Follows fails σ (.ok (σ.recruit g)) (σ.recruitCb g fails) := by
  have h1 := recruitLoop_follows (fails := fails) (σ.sched.getReadyTasks g) σ
  exact follows_bind h1 (f := fun σ' => .ok (σ'.emit [.recruit (σ.sched.getReadyTasks g)]))
    (fun σ1 _ => follows_plain (os := [.recruit (σ.sched.getReadyTasks g)]) rfl (by simp))

theorem checkAll_follows (σ : Server N T K S) : Follows fails σ (.ok (σ.checkAll g)) (σ.checkAll g, none) := by
  obtain ⟨_, _, _, os, h1, h2, _⟩ := checkAll_spec (g := g) σ
  refine follows_plain h1 ?_
  intro t ht
  obtain ⟨t', h⟩ := h2 _ ht
  cases h

theorem release_follows (pick : Nat → Finset N → N) (σ : Server N T K S) (n : N) (status : BlockStatus) :
    Follows fails σ (σ.release g pick n status) (σ.releaseCb g fails pick n status) := by
  unfold Server.release Server.releaseCb
  rcases h : σ.sched.releaseBlock g pick n status with e | st'
  · exact follows_error
  · simp only
    obtain ⟨_, _, _, os, h1, h2, _⟩ := checkAll_spec (g := g)
      (({ σ with sched := st' } : Server N T K S).emit [.release n status, .released (g.task n)])
    refine follows_shift (a := [.release n status, .released (g.task n)] ++ os) ?_ ?_ (recruit_follows _)
    · rw [h1, ← List.append_assoc]; rfl
    · intro t ht
      rcases List.mem_append.1 ht with ht | ht
      · simp at ht
      · obtain ⟨t', h⟩ := h2 _ ht
        cases h

theorem safeRelease_follows (pick : Nat → Finset N → N) (σ : Server N T K S) (n : N) (status : BlockStatus) (s : S) :
    Follows fails σ (σ.safeRelease g pick n status s) (σ.safeReleaseCb g fails pick n status s) := by
  unfold Server.safeRelease Server.safeReleaseCb
  split
  · refine follows_bind (release_follows pick σ n status) ?_
    intro σ1 _
    rcases h : σ1.book.notifyReturned (g.key n) s with e | book
    · exact follows_error
    · exact follows_plain (os := []) (List.append_nil _).symm (by simp)
  · exact follows_plain (os := []) (by simp) (by simp)

theorem acquire_follows (chk : Nat → N → Check) (now : Int) (σ : Server N T K S) (t : T) (s : S) :
    Follows fails σ (σ.handleAcquire g cfg chk now t s) (σ.handleAcquireCb g cfg fails chk now t s) := by
  unfold Server.handleAcquire Server.handleAcquireCb
  rcases h : σ.sched.acquireBlock g chk t with e | ⟨skips, r, st'⟩
  · exact follows_error
  · simp only
    rcases r with _ | n
    · simp only
      by_cases h1 : (st'.states t).ready ≠ 0
      · rw [if_pos h1, if_pos h1]
        exact follows_error
      · rw [if_neg h1, if_neg h1]
        by_cases h2 : (st'.states t).pending = 0
        · rw [if_pos h2, if_pos h2]
          refine follows_shift (a := skips.map .skip ++ [.shutdown s t]) ?_ (by simp) (recruit_follows _)
          simp [Server.emit]
        · rw [if_neg h2, if_neg h2]
          by_cases h3 : t ∈ cfg.served
          · rw [if_pos h3, if_pos h3]
            exact follows_plain (os := skips.map .skip) rfl (by simp)
          · rw [if_neg h3, if_neg h3]
            exact follows_error
    · simp only
      split
      · exact follows_error
      · next hb =>
        rw [hb]
        refine follows_plain (os := skips.map .skip ++ [.send s n, .acquired t]) ?_ (by simp)
        simp [Server.emit]

theorem handle_follows (chk : Nat → N → Check) (pick : Nat → Finset N → N) (now : Int) (σ : Server N T K S)
    (m : Msg N T) (s : S) :
    Follows fails σ (σ.handle g cfg chk pick now m s) (σ.handleCb g cfg fails chk pick now m s) := by
  unfold Server.handle Server.handleCb
  refine follows_bind ?_ (fun σ1 _ => checkAll_follows σ1)
  cases m with
  | acquire t => exact acquire_follows chk now σ t s
  | release n status => exact safeRelease_follows pick σ n status s
  | blockFailed n w =>
    exact follows_bind (safeRelease_follows pick σ n .failed s)
      (f := fun σ' => .ok (σ'.emit [.blockFailure n w])) (fun σ1 _ => follows_plain rfl (by simp))
  | clientException => exact follows_error
  | other => exact follows_error

theorem handleMessages_follows (chk : Nat → N → Check) (pick : Nat → Finset N → N) (now : Int) (σ : Server N T K S)
    (m : Server.Recv N T S) :
    Follows fails σ (σ.handleMessages g cfg chk pick now m) (σ.handleMessagesCb g cfg fails chk pick now m) := by
  have same : Follows fails σ (.ok σ) (σ, none) := follows_plain (os := []) (by simp) (by simp)
  cases m with
  | msg m s => exact handle_follows chk pick now σ m s
  | closed => exact same
  | nothing =>
    unfold Server.handleMessages Server.handleMessagesCb
    simp only
    rcases h : cfg.served.find? (fun t => (σ.pending t).length ≠ 0) with _ | t
    · exact same
    · simp only
      rcases h' : σ.pending t with _ | ⟨s, rest⟩
      · exact same
      · exact follows_shift (a := []) (List.append_nil _).symm (by simp) (handle_follows chk pick now _ _ _)

theorem releaseLost_follows (pick : N → Nat → Finset N → N) : ∀ (ns : List N) (σ : Server N T K S),
    Follows fails σ (Server.releaseLost g pick ns σ) (Server.releaseLostCb g fails pick ns σ)
  | [], σ => follows_plain (os := []) (by simp) (by simp)
  | n :: ns, σ => by
    unfold Server.releaseLost Server.releaseLostCb
    exact follows_bind (release_follows (pick n) σ n .failed) (fun σ1 _ => releaseLost_follows pick ns σ1)

theorem checkLost_follows (pick : N → Nat → Finset N → N) (closed : S → Bool) (clock : Nat → Int)
    (σ : Server N T K S) :
    Follows fails σ (σ.checkLost g pick closed clock) (σ.checkLostCb g fails pick closed clock) := by
  unfold Server.checkLost Server.checkLostCb
  rcases h : σ.book.getLost closed none clock with e | ⟨lost, book⟩
  · exact follows_error
  · exact follows_shift (a := []) (List.append_nil _).symm (by simp) (releaseLost_follows pick _ _)

theorem iteration_follows (σ : Server N T K S) (k : Server.Tick N T S) :
    Follows fails σ (σ.iteration g cfg k) (σ.iterationCb g cfg fails k) := by
  unfold Server.iteration Server.iterationCb
  refine follows_bind (handleMessages_follows _ _ _ σ _) (fun σ1 _ => ?_)
  refine follows_bind (f := fun σ2 => .ok (if k.late then σ2.checkAll g else σ2)) (checkLost_follows _ _ _ σ1)
    (fun σ2 _ => ?_)
  split
  · exact checkAll_follows σ2
  · exact follows_plain (os := []) (by simp) (by simp)

theorem andThen_assoc (r : Server N T K S × Option PyErr) (f h : Server N T K S → Server N T K S × Option PyErr) :
    Server.andThen (Server.andThen r f) h = Server.andThen r (fun σ => Server.andThen (f σ) h) := by
  obtain ⟨σ, _ | e⟩ := r <;> rfl

theorem loopCb_snoc (k : Server.Tick N T S) : ∀ (ks : List (Server.Tick N T S)) (σ : Server N T K S),
    Server.loopCb g cfg fails (ks ++ [k]) σ =
      Server.andThen (Server.loopCb g cfg fails ks σ) (fun σ => σ.iterationCb g cfg fails k)
  | [], σ => by
    simp only [List.nil_append, Server.loopCb]
    rcases h : σ.iterationCb g cfg fails k with ⟨σ', _ | e⟩ <;> simp [Server.andThen, h]
  | k' :: ks, σ => by
    simp only [List.cons_append, Server.loopCb]
    rw [andThen_assoc]
    congr 1
    funext σ'
    exact loopCb_snoc k ks σ'

theorem runCb_snoc (ks : List (Server.Tick N T S)) (k : Server.Tick N T S) :
    Server.runCb g cfg fails (ks ++ [k]) =
      Server.andThen (Server.runCb g cfg fails ks) (fun σ : Server N T K S => σ.iterationCb g cfg fails k) := by
  unfold Server.runCb
  rw [andThen_assoc]
  congr 1
  funext σ'
  exact loopCb_snoc k ks σ'

/-- The whole run. -/
theorem run_follows {ks : List (Server.Tick N T S)} (h : SRun g cfg ks σ) :
    CutAt fails σ.out (Server.runCb g cfg fails ks).1.out (Server.runCb (K := K) g cfg fails ks).2 ∧
      ((Server.runCb (K := K) g cfg fails ks).2 = none → (Server.runCb g cfg fails ks).1 = σ) := by
  have key : Follows fails (⟨Sched.init g, [], [], [], false, false, fun _ => [], []⟩ : Server N T K S) (.ok σ)
      (Server.runCb g cfg fails ks) := by
    induction h with
    | init =>
      have h1 := recruit_follows (g := g) (fails := fails)
        (⟨Sched.init g, [], [], [], false, false, fun _ => [], []⟩ : Server N T K S)
      have : Server.runCb g cfg fails [] = Server.initCb (S := S) g fails := by
        unfold Server.runCb
        rcases h : Server.initCb (S := S) g fails with ⟨σ', _ | e⟩ <;> rfl
      rw [this]
      exact h1
    | @step ks σ σ' k _ _ _ he ih =>
      rw [runCb_snoc]
      have := follows_bind ih (f := fun σ => σ.iteration g cfg k) (fun σ1 e => iteration_follows σ1 k)
      simp only [he] at this
      exact this
  obtain ⟨os, cut, a1, a2, a3, a4⟩ := key σ rfl
  rw [List.nil_append] at a1 a2
  rw [a1, a2]
  exact ⟨a3, a4⟩

end Verif
