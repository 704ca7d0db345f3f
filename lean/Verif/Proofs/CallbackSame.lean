import Verif.Proofs.CallbackRaises

/-! # `Model/Callback` against `Model/Server`: no exception is hidden -/

set_option linter.unusedSectionVars false

namespace Verif

variable {N T K S : Type} [DecidableEq N] [DecidableEq T] [DecidableEq K] [DecidableEq S]
  {g : DGraph N T K} {cfg : SConf T} {fails : T → Option PyErr} {σ σ' : Server N T K S}

/-- The same outcome: the same state, or the same exception. -/
def Mirrors (o : Except PyErr (Server N T K S)) (r : Server N T K S × Option PyErr) : Prop :=
  match o with
  | .ok σ' => r = (σ', none)
  | .error e => r.2 = some e

/-- The same outcome, or the exception of a callback. -/
def Either (fails : T → Option PyErr) (o : Except PyErr (Server N T K S)) (r : Server N T K S × Option PyErr) : Prop :=
  Mirrors o r ∨ ∃ t, fails t ≠ none ∧ r.2 = fails t

theorem either_bind {o : Except PyErr (Server N T K S)} {r : Server N T K S × Option PyErr}
    {f : Server N T K S → Except PyErr (Server N T K S)} {fc : Server N T K S → Server N T K S × Option PyErr}
    (h : Either fails o r) (hf : ∀ σ1, Either fails (f σ1) (fc σ1)) :
    Either fails (match (generalizing := false) o with | .error e => .error e | .ok σ1 => f σ1)
      (Server.andThen r fc) := by
  rcases h with h | ⟨t, h1, h2⟩
  · cases o with
    | error e =>
      change r.2 = some e at h
      left
      change (Server.andThen r fc).2 = some e
      unfold Server.andThen
      rw [h]
    | ok σ1 =>
      change r = (σ1, none) at h
      subst h
      exact hf σ1
  · obtain ⟨e, he⟩ := Option.ne_none_iff_exists'.1 h1
    refine Or.inr ⟨t, h1, ?_⟩
    unfold Server.andThen
    rw [he] at h2
    rw [h2, he]

theorem recruitLoop_same : ∀ (l : List T) (σ : Server N T K S), Either fails (.ok
    (l.foldl (fun σ t => if t ∈ σ.started then σ
      else { (σ.emit [.taskStart t, .callback t]) with started := σ.started ++ [t] }) σ))
    (Server.recruitLoop fails l σ)
  | [], σ => Or.inl rfl
  | t :: l, σ => by
    rw [List.foldl_cons]
    unfold Server.recruitLoop
    split
    · exact recruitLoop_same l σ
    · rcases hf : fails t with _ | e
      · exact recruitLoop_same l _
      · exact Or.inr ⟨t, by rw [hf]; exact Option.some_ne_none _, hf.symm⟩

theorem recruit_same (σ : Server N T K S) : Either fails (.ok (σ.recruit g)) (σ.recruitCb g fails) := by
  unfold Server.recruitCb
  exact either_bind (f := fun σ' => .ok (σ'.emit [.recruit (σ.sched.getReadyTasks g)]))
    (recruitLoop_same (σ.sched.getReadyTasks g) σ) (fun σ1 => Or.inl rfl)

theorem release_same (pick : Nat → Finset N → N) (σ : Server N T K S) (n : N) (status : BlockStatus) :
    Either fails (σ.release g pick n status) (σ.releaseCb g fails pick n status) := by
  unfold Server.release Server.releaseCb
  rcases h : σ.sched.releaseBlock g pick n status with e | st'
  · exact Or.inl rfl
  · exact recruit_same _

theorem safeRelease_same (pick : Nat → Finset N → N) (σ : Server N T K S) (n : N) (status : BlockStatus) (s : S) :
    Either fails (σ.safeRelease g pick n status s) (σ.safeReleaseCb g fails pick n status s) := by
  unfold Server.safeRelease Server.safeReleaseCb
  split
  · refine either_bind (release_same pick σ n status) ?_
    intro σ1
    rcases h : σ1.book.notifyReturned (g.key n) s with e | book
    · exact Or.inl rfl
    · exact Or.inl rfl
  · exact Or.inl rfl

theorem acquire_same (chk : Nat → N → Check) (now : Int) (σ : Server N T K S) (t : T) (s : S) :
    Either fails (σ.handleAcquire g cfg chk now t s) (σ.handleAcquireCb g cfg fails chk now t s) := by
  unfold Server.handleAcquire Server.handleAcquireCb
  rcases h : σ.sched.acquireBlock g chk t with e | ⟨skips, r, st'⟩
  · exact Or.inl rfl
  · simp only
    rcases r with _ | n
    · simp only
      split
      · exact Or.inl rfl
      · split
        · exact recruit_same _
        · split <;> exact Or.inl rfl
    · simp only
      split
      · rename_i h1; simp only [h1]; exact Or.inl rfl
      · rename_i h1; simp only [h1]; exact Or.inl rfl

theorem handle_same (chk : Nat → N → Check) (pick : Nat → Finset N → N) (now : Int) (σ : Server N T K S)
    (m : Msg N T) (s : S) :
    Either fails (σ.handle g cfg chk pick now m s) (σ.handleCb g cfg fails chk pick now m s) := by
  unfold Server.handle Server.handleCb
  refine either_bind ?_ (fun σ1 => Or.inl rfl)
  cases m with
  | acquire t => exact acquire_same chk now σ t s
  | release n status => exact safeRelease_same pick σ n status s
  | blockFailed n w =>
    exact either_bind (f := fun σ' => .ok (σ'.emit [.blockFailure n w])) (safeRelease_same pick σ n .failed s) (fun σ1 => Or.inl rfl)
  | clientException => exact Or.inl rfl
  | other => exact Or.inl rfl

theorem handleMessages_same (chk : Nat → N → Check) (pick : Nat → Finset N → N) (now : Int) (σ : Server N T K S)
    (m : Server.Recv N T S) :
    Either fails (σ.handleMessages g cfg chk pick now m) (σ.handleMessagesCb g cfg fails chk pick now m) := by
  cases m with
  | msg m s => exact handle_same chk pick now σ m s
  | closed => exact Or.inl rfl
  | nothing =>
    unfold Server.handleMessages Server.handleMessagesCb
    simp only
    split
    · rename_i h1; simp only [h1]; exact Or.inl rfl
    · rename_i h1
      simp only [h1]
      split
      · rename_i h2; simp only [h2]; exact Or.inl rfl
      · rename_i h2; simp only [h2]; exact handle_same chk pick now _ _ _

theorem releaseLost_same (pick : N → Nat → Finset N → N) : ∀ (ns : List N) (σ : Server N T K S),
    Either fails (Server.releaseLost g pick ns σ) (Server.releaseLostCb g fails pick ns σ)
  | [], σ => Or.inl rfl
  | n :: ns, σ => by
    unfold Server.releaseLost Server.releaseLostCb
    exact either_bind (release_same (pick n) σ n .failed) (fun σ1 => releaseLost_same pick ns σ1)

theorem checkLost_same (pick : N → Nat → Finset N → N) (closed : S → Bool) (clock : Nat → Int)
    (σ : Server N T K S) :
    Either fails (σ.checkLost g pick closed clock) (σ.checkLostCb g fails pick closed clock) := by
  unfold Server.checkLost Server.checkLostCb
  rcases h : σ.book.getLost closed none clock with e | ⟨lost, book⟩
  · exact Or.inl rfl
  · exact releaseLost_same pick _ _

theorem iteration_same (σ : Server N T K S) (k : Server.Tick N T S) :
    Either fails (σ.iteration g cfg k) (σ.iterationCb g cfg fails k) := by
  unfold Server.iteration Server.iterationCb
  refine either_bind (handleMessages_same _ _ _ σ _) (fun σ1 => ?_)
  exact either_bind (f := fun σ2 => .ok (if k.late then σ2.checkAll g else σ2)) (checkLost_same _ _ _ σ1) (fun σ2 => Or.inl rfl)

theorem loopCb_append {fails : T → Option PyErr} : ∀ (ks ks' : List (Server.Tick N T S)) (σ : Server N T K S),
    Server.loopCb g cfg fails (ks ++ ks') σ =
      Server.andThen (Server.loopCb g cfg fails ks σ) (Server.loopCb g cfg fails ks')
  | [], ks', σ => rfl
  | k :: ks, ks', σ => by
    show Server.andThen _ _ = Server.andThen (Server.andThen _ _) _
    rcases Server.iterationCb g cfg fails σ k with ⟨σ1, _ | e⟩
    · exact loopCb_append ks ks' σ1
    · rfl

theorem runCb_append {fails : T → Option PyErr} (ks ks' : List (Server.Tick N T S)) :
    Server.runCb (K := K) g cfg fails (ks ++ ks') =
      Server.andThen (Server.runCb g cfg fails ks) (Server.loopCb g cfg fails ks') := by
  unfold Server.runCb
  rcases Server.initCb (S := S) g fails with ⟨σ1, _ | e⟩
  · exact loopCb_append ks ks' σ1
  · rfl

end Verif
