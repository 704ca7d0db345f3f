import Verif.Spec.Strangers
import Verif.Proofs.Server
import Verif.Props.Outcome

/-! # The server with arbitrary clients: helper lemmas -/

set_option linter.unusedSectionVars false

namespace Verif

open Spec

variable {N T K S : Type} [DecidableEq N] [DecidableEq T] [DecidableEq K] [DecidableEq S]
  {g : DGraph N T K} {cfg : SConf T} {σ σ' : Server N T K S} {extra : List T}

theorem stateKeys_of_task {t : T} (h : t ∈ g.tasks) : t ∈ Sched.stateKeys g := by
  rw [Sched.stateKeys, List.mem_append, List.mem_filter]
  by_cases hr : t ∈ g.rootTasks
  · exact Or.inl hr
  · exact Or.inr ⟨h, by simpa using hr⟩

/-! ## Announcements of tasks that are not in the pipeline change nothing else -/

theorem strip_fold {α : Type} {f : Server N T K S → α → Server N T K S} {l : List α}
    (hf : ∀ σ, ∀ a ∈ l, strip g (f σ a) = f (strip g σ) a) :
    ∀ σ, strip g (l.foldl f σ) = l.foldl f (strip g σ) := by
  induction l with
  | nil => intro σ; rfl
  | cons a l ih =>
    intro σ
    rw [List.foldl_cons, List.foldl_cons, ← hf σ a List.mem_cons_self]
    exact ih (fun σ a ha => hf σ a (List.mem_cons_of_mem _ ha)) _

theorem strip_emit {os : List (Out N T S)} (h : ∀ o ∈ os, ofPipeline g o = true) :
    strip g (σ.emit os) = (strip g σ).emit os := by
  unfold strip Server.emit
  simp only [List.filter_append, List.filter_eq_self.2 h]

theorem strip_recruit (σ : Server N T K S) : strip g (σ.recruit g) = (strip g σ).recruit g := by
  unfold Server.recruit
  simp only
  rw [strip_emit (by simp [ofPipeline]), strip_fold]
  · rfl
  · intro σ t _
    change _ = if t ∈ σ.started then _ else _
    by_cases h : t ∈ σ.started
    · rw [if_pos h, if_pos h]
    · rw [if_neg h, if_neg h]
      unfold strip Server.emit
      simp [ofPipeline]

theorem strip_checkAll (σ : Server N T K S) : strip g (σ.checkAll g) = (strip g σ).checkAll g := by
  have key : ∀ σ : Server N T K S, strip g ((Server.checked g).foldl (fun σ t =>
      if (σ.sched.states t).isDone then
        if t ∈ σ.finished then σ
        else { (σ.emit [.taskDone t]) with finished := σ.finished ++ [t] }
      else { σ with allDone := false }) σ) = (Server.checked g).foldl (fun σ t =>
      if (σ.sched.states t).isDone then
        if t ∈ σ.finished then σ
        else { (σ.emit [.taskDone t]) with finished := σ.finished ++ [t] }
      else { σ with allDone := false }) (strip g σ) := by
    intro σ
    refine strip_fold ?_ σ
    intro σ t ht
    have ht' : t ∈ g.tasks := mem_checked.1 ht
    have hiff : t ∈ (strip g σ).finished ↔ t ∈ σ.finished := by
      unfold strip
      simp [ht']
    change _ = if (σ.sched.states t).isDone then _ else _
    by_cases hd : (σ.sched.states t).isDone
    · rw [if_pos hd, if_pos hd]
      by_cases hfin : t ∈ σ.finished
      · rw [if_pos hfin, if_pos (hiff.2 hfin)]
      · rw [if_neg hfin, if_neg (fun h => hfin (hiff.1 h))]
        unfold strip Server.emit
        simp [ofPipeline, ht']
    · rw [if_neg hd, if_neg hd]
      rfl
  unfold Server.checkAll
  simp only
  have h1 := key { σ with allDone := true }
  have h2 : strip g ({ σ with allDone := true } : Server N T K S) = { strip g σ with allDone := true } := rfl
  rw [h2] at h1
  rw [← h1]
  generalize (Server.checked g).foldl (fun (σ : Server N T K S) t =>
      if (σ.sched.states t).isDone then
        if t ∈ σ.finished then σ
        else { (σ.emit [.taskDone t]) with finished := σ.finished ++ [t] }
      else { σ with allDone := false }) { σ with allDone := true } = A
  have h3 : (strip g A).allDone = A.allDone := rfl
  rw [h3]
  cases A.allDone <;> rfl

theorem strip_more (he : ∀ t ∈ extra, t ∉ g.tasks) (σ : Server N T K S) :
    strip g (extra.foldl (fun σ t =>
      if t ∈ σ.finished then σ
      else { (σ.emit [.taskDone t]) with finished := σ.finished ++ [t] }) σ) = strip g σ := by
  induction extra generalizing σ with
  | nil => rfl
  | cons t extra ih =>
    rw [List.foldl_cons, ih (fun t h => he t (List.mem_cons_of_mem _ h))]
    have ht := he t List.mem_cons_self
    split
    · rfl
    · unfold strip Server.emit
      simp [ofPipeline, ht]

theorem strip_checkAllOpen (he : ∀ t ∈ extra, t ∉ g.tasks) (σ : Server N T K S) :
    strip g (σ.checkAllOpen g extra) = (strip g σ).checkAll g := by
  unfold Server.checkAllOpen
  rw [strip_more he, strip_checkAll]

theorem strip_handleAcquire (chk : Nat → N → Check) (now : Int) (σ : Server N T K S) (t : T) (s : S) :
    (σ.handleAcquire g cfg chk now t s).map (strip g) = (strip g σ).handleAcquire g cfg chk now t s := by
  unfold Server.handleAcquire
  have h1 : (strip g σ).sched = σ.sched := rfl
  rw [h1]
  rcases σ.sched.acquireBlock g chk t with e | ⟨skips, r, st'⟩
  · rfl
  · have h2 : strip g (({ σ with sched := st' }).emit (skips.map .skip)) =
        ({ strip g σ with sched := st' } : Server N T K S).emit (skips.map .skip) := by
      rw [strip_emit]
      · rfl
      · intro o ho
        obtain ⟨n, _, rfl⟩ := List.mem_map.1 ho
        rfl
    simp only
    rw [← h2]
    generalize ({ σ with sched := st' } : Server N T K S).emit (skips.map .skip) = σ1
    rcases r with _ | n
    · simp only
      split
      · rfl
      · split
        · change Except.ok _ = _
          rw [strip_recruit, strip_emit (by simp [ofPipeline])]
        · split <;> rfl
    · simp only
      have h3 : (strip g σ1).book = σ1.book := rfl
      rw [h3]
      rcases σ1.book.notifySent (g.key n) n s now with e | book
      · rfl
      · simp only
        change Except.ok _ = _
        rw [strip_emit (by simp [ofPipeline])]
        rfl

theorem strip_release (he : ∀ t ∈ extra, t ∉ g.tasks) (pick : Nat → Finset N → N) (σ : Server N T K S) (n : N)
    (status : BlockStatus) :
    (σ.releaseOpen g extra pick n status).map (strip g) = (strip g σ).release g pick n status := by
  unfold Server.releaseOpen Server.release
  have h1 : (strip g σ).sched = σ.sched := rfl
  rw [h1]
  rcases σ.sched.releaseBlock g pick n status with e | st'
  · rfl
  · simp only
    change Except.ok _ = _
    rw [strip_recruit, strip_checkAllOpen he, strip_emit (by simp [ofPipeline])]
    rfl

theorem strip_safeRelease (he : ∀ t ∈ extra, t ∉ g.tasks) (pick : Nat → Finset N → N) (σ : Server N T K S) (n : N)
    (status : BlockStatus) (s : S) :
    (σ.safeReleaseOpen g extra pick n status s).map (strip g) = (strip g σ).safeRelease g pick n status s := by
  unfold Server.safeReleaseOpen Server.safeRelease
  have h1 : (strip g σ).book = σ.book := rfl
  rw [h1, ← strip_release he]
  split
  · rcases σ.releaseOpen g extra pick n status with e | σ1
    · rfl
    · simp only [Except.map]
      have h2 : (strip g σ1).book = σ1.book := rfl
      rw [h2]
      rcases σ1.book.notifyReturned (g.key n) s with e | book
      · rfl
      · rfl
  · rfl

theorem addKeys_fresh (he : ∀ t ∈ extra, t ∉ g.tasks) (m : Msg N T) : ∀ t ∈ Server.addKeys g extra m, t ∉ g.tasks := by
  cases m with
  | acquire t =>
    intro t' ht'
    simp only [Server.addKeys] at ht'
    split at ht'
    · exact he t' ht'
    · rename_i hn
      rcases List.mem_append.1 ht' with h | h
      · exact he t' h
      · rw [List.mem_singleton] at h
        subst h
        intro hc
        exact hn (Or.inl (stateKeys_of_task hc))
  | _ => exact he

theorem strip_handle (he : ∀ t ∈ extra, t ∉ g.tasks) (chk : Nat → N → Check) (pick : Nat → Finset N → N) (now : Int)
    (σ : Server N T K S) (m : Msg N T) (s : S) :
    (σ.handleOpen g cfg extra chk pick now m s).map (fun r => strip g r.1) =
      (strip g σ).handle g cfg chk pick now m s := by
  have hf := addKeys_fresh he m
  unfold Server.handleOpen Server.handle
  cases m with
  | acquire t =>
    simp only
    rw [← strip_handleAcquire]
    rcases σ.handleAcquire g cfg chk now t s with e | σ1
    · rfl
    · simp only [Except.map]
      rw [strip_checkAllOpen hf]
  | release n status =>
    simp only
    rw [← strip_safeRelease he]
    rcases σ.safeReleaseOpen g extra pick n status s with e | σ1
    · rfl
    · simp only [Except.map]
      rw [strip_checkAllOpen hf]
  | blockFailed n w =>
    simp only
    rw [← strip_safeRelease he]
    rcases σ.safeReleaseOpen g extra pick n .failed s with e | σ1
    · rfl
    · simp only [Except.map]
      rw [strip_checkAllOpen hf, strip_emit (by simp [ofPipeline])]
  | clientException => rfl
  | other => rfl

theorem strip_handleMessages (he : ∀ t ∈ extra, t ∉ g.tasks) (chk : Nat → N → Check) (pick : Nat → Finset N → N)
    (now : Int) (σ : Server N T K S) (r : Server.Recv N T S) :
    (σ.handleMessagesOpen g cfg extra chk pick now r).map (fun r => strip g r.1) =
      (strip g σ).handleMessages g cfg chk pick now r := by
  cases r with
  | msg m s => exact strip_handle he chk pick now σ m s
  | closed => rfl
  | nothing =>
    unfold Server.handleMessagesOpen Server.handleMessages
    have h1 : (strip g σ).pending = σ.pending := rfl
    simp only
    rw [h1]
    rcases cfg.served.find? (fun t => (σ.pending t).length ≠ 0) with _ | t
    · rfl
    · simp only
      rcases σ.pending t with _ | ⟨s, rest⟩
      · rfl
      · exact strip_handle he chk pick now _ (.acquire t) s

theorem handleOpen_extra {chk : Nat → N → Check} {pick : Nat → Finset N → N} {now : Int} {m : Msg N T} {s : S}
    {extra' : List T} (h : σ.handleOpen g cfg extra chk pick now m s = .ok (σ', extra')) :
    extra' = Server.addKeys g extra m := by
  unfold Server.handleOpen at h
  simp only at h
  split at h
  · cases h
  · cases h; rfl

theorem handleMessagesOpen_fresh (he : ∀ t ∈ extra, t ∉ g.tasks) {chk : Nat → N → Check} {pick : Nat → Finset N → N}
    {now : Int} {r : Server.Recv N T S} {extra' : List T}
    (h : σ.handleMessagesOpen g cfg extra chk pick now r = .ok (σ', extra')) : ∀ t ∈ extra', t ∉ g.tasks := by
  cases r with
  | msg m s =>
    rw [handleOpen_extra h]
    exact addKeys_fresh he m
  | closed => cases h; exact he
  | nothing =>
    unfold Server.handleMessagesOpen at h
    simp only at h
    split at h
    · cases h; exact he
    · split at h
      · cases h; exact he
      · rw [handleOpen_extra h]
        exact addKeys_fresh he _

theorem strip_releaseLost (he : ∀ t ∈ extra, t ∉ g.tasks) (pick : N → Nat → Finset N → N) :
    ∀ (ns : List N) (σ : Server N T K S), (Server.releaseLostOpen g extra pick ns σ).map (strip g) =
      Server.releaseLost g pick ns (strip g σ)
  | [], σ => rfl
  | n :: ns, σ => by
    unfold Server.releaseLostOpen Server.releaseLost
    rw [← strip_release he]
    rcases σ.releaseOpen g extra (pick n) n .failed with e | σ1
    · rfl
    · exact strip_releaseLost he pick ns σ1

theorem strip_checkLost (he : ∀ t ∈ extra, t ∉ g.tasks) (pick : N → Nat → Finset N → N) (closed : S → Bool)
    (clock : Nat → Int) (σ : Server N T K S) :
    (σ.checkLostOpen g extra pick closed clock).map (strip g) = (strip g σ).checkLost g pick closed clock := by
  unfold Server.checkLostOpen Server.checkLost
  have h1 : (strip g σ).book = σ.book := rfl
  rw [h1]
  rcases σ.book.getLost closed none clock with e | ⟨lost, book⟩
  · rfl
  · exact strip_releaseLost he pick lost _

theorem strip_iteration {x : OpenServer N T K S} (he : ∀ t ∈ x.extra, t ∉ g.tasks) (k : Server.Tick N T S) :
    (x.iteration g cfg k).map (fun y => strip g y.srv) = (strip g x.srv).iteration g cfg k := by
  unfold OpenServer.iteration Server.iteration
  rw [← strip_handleMessages he]
  rcases h : x.srv.handleMessagesOpen g cfg x.extra k.chk k.pick k.now k.recv with e | ⟨σ1, extra⟩
  · rfl
  · have hf := handleMessagesOpen_fresh he h
    simp only [Except.map]
    rw [← strip_checkLost hf]
    rcases σ1.checkLostOpen g extra k.pickLost k.closed k.clock with e | σ2
    · rfl
    · simp only [Except.map]
      cases k.late
      · rfl
      · simp only [if_true]
        rw [strip_checkAllOpen hf]

theorem iteration_fresh {x y : OpenServer N T K S} (he : ∀ t ∈ x.extra, t ∉ g.tasks) {k : Server.Tick N T S}
    (h : x.iteration g cfg k = .ok y) : ∀ t ∈ y.extra, t ∉ g.tasks := by
  unfold OpenServer.iteration at h
  rcases h1 : x.srv.handleMessagesOpen g cfg x.extra k.chk k.pick k.now k.recv with e | ⟨σ1, extra⟩
  · rw [h1] at h; cases h
  · rw [h1] at h
    simp only at h
    rcases h2 : σ1.checkLostOpen g extra k.pickLost k.closed k.clock with e | σ2
    · rw [h2] at h; cases h
    · rw [h2] at h
      cases h
      exact handleMessagesOpen_fresh he h1

/-! ## Arbitrary messages -/

theorem holder_strip (out : List (Out N T S)) (n : N) : holder (out.filter (ofPipeline g)) n = holder out n := by
  unfold holder
  generalize (none : Option S) = h0
  induction out generalizing h0 with
  | nil => rfl
  | cons o out ih =>
    rw [List.filter_cons]
    split
    · exact ih _
    · rename_i hn
      cases o with
      | taskDone t => exact ih h0
      | _ => exact absurd rfl hn

theorem evs_strip (out : List (Out N T S)) : evs (out.filter (ofPipeline g)) = evs out := by
  unfold evs
  induction out with
  | nil => rfl
  | cons o out ih =>
    rw [List.filter_cons]
    split
    · rw [List.filterMap_cons, List.filterMap_cons, ih]
    · rename_i hn
      cases o with
      | taskDone t => exact ih
      | _ => exact absurd rfl hn

theorem no_blocks (hg : g.Loose) {tr : List (Ev N)} {st : Sched N T K} (h : Run g tr st) {t : T}
    (ht : ∀ n ∈ g.nodes, g.task n ≠ t) : (st.states t).pending = 0 ∧ (st.states t).ready = 0 := by
  have hz : ∀ P, cnt g t P = 0 := fun P => cnt_eq_zero.2 (fun n hn he => absurd he (ht n hn))
  obtain ⟨h1, h2, h3, _, h5, h6⟩ := C19_loose_partial hg h t
  have h7 := (C22_loose_orphan_count_lower hg h t).2.2 (fun n hn he => absurd he (ht n hn))
  rw [hz] at h1 h2 h3 h5 h6
  unfold TState.pending
  exact ⟨by omega, h1⟩

theorem loop_skips (t : T) (chk : Nat → N → Check) : ∀ (fuel k : Nat) (st : Sched N T K) (acc : List N) (sk : List N)
    (r : Option N) (st' : Sched N T K), Sched.acquireLoop g t fuel chk k st acc = .ok (sk, r, st') → acc <+: sk
  | 0, _, _, _, _, _, _, h => by cases h
  | fuel + 1, k, st, acc, sk, r, st', h => by
    rw [Sched.acquireLoop] at h
    generalize (st.queues t).getNext = z at h
    rcases z with e | ⟨_ | n, q⟩
    · cases h
    · cases h; exact List.prefix_refl _
    · simp only at h
      split at h
      · split at h
        · cases h
        · have := loop_skips t chk fuel _ _ _ _ _ _ h
          exact (List.prefix_append acc [n]).trans this
      · cases h; exact List.prefix_refl _

theorem acquire_nothing {chk : Nat → N → Check} {t : T} {st st' : Sched N T K}
    (h : st.acquireBlock g chk t = .ok ([], none, st')) : st' = st := by
  unfold Sched.acquireBlock at h
  rw [Sched.acquireLoop] at h
  rcases hn : (st.queues t).getNext with e | ⟨_ | n, q⟩
  · rw [hn] at h; cases h
  · rw [hn] at h
    have hq : q = st.queues t := by
      unfold PQueue.getNext at hn
      split at hn
      · split at hn
        · split at hn <;> cases hn
        · split at hn <;> cases hn
      · cases hn; rfl
    cases h
    unfold Sched.modQueue
    rw [hq]
    have : upd st.queues t (st.queues t) = st.queues := by
      funext t'
      unfold upd
      split
      · rename_i e; rw [e]
      · rfl
    rw [this]
  · rw [hn] at h
    simp only at h
    split at h
    · split at h
      · cases h
      · have := loop_skips t chk _ _ _ _ _ _ _ h
        simp at this
    · cases h

/-- A request for any task. -/
theorem acquire_any (hg : g.Loose) (hserved : ∀ n ∈ g.nodes, g.task n ∈ cfg.served) (h : SInv g σ) (chk : Nat → N → Check)
    (now : Int) (t : T) (s : S) :
    ∃ σ', σ.handleAcquire g cfg chk now t s = .ok σ' ∧ SInv g σ' ∧
      (∀ n, holder σ.out n ≠ none → holder σ'.out n = holder σ.out n) ∧
      (t ∉ cfg.served → σ'.sched = σ.sched ∧ σ'.book = σ.book ∧ σ'.pending = σ.pending ∧
        ∃ os, σ'.out = σ.out ++ .shutdown s t :: os ∧ ∀ o ∈ os, Silent o) := by
  obtain ⟨σ', skips, r, h1, h2, h3, h4⟩ := handleAcquire_spec (cfg := { cfg with served := t :: cfg.served }) hg h chk now s
    List.mem_cons_self
  have hout : ∀ n, holder σ.out n ≠ none → holder σ'.out n = holder σ.out n := by
    intro n hn
    rcases r with _ | m
    · simp only at h4
      obtain ⟨_, h4⟩ := h4
      split at h4
      · rw [h4.2, (recruit_frame _).holder]
        change holder (σ.out ++ skips.map .skip ++ [.shutdown s t]) n = _
        rw [holder_append, holder_skips]
        rfl
      · rw [h4.2.1, holder_skips]
    · simp only at h4
      obtain ⟨h5, _, h6, _⟩ := h4
      rw [h5, holder_append, holder_skips]
      simp only [List.foldl_cons, List.foldl_nil, holderStep]
      rw [if_neg]
      rintro rfl
      exact hn h6
  by_cases ht : t ∈ cfg.served
  · refine ⟨σ', ?_, h2, hout, fun hc => absurd ht hc⟩
    rw [← h1]
    unfold Server.handleAcquire
    simp only [ht, List.mem_cons_self, if_true]
  · have hno : ∀ n ∈ g.nodes, g.task n ≠ t := fun n hn he => ht (he ▸ hserved n hn)
    obtain ⟨hp, _⟩ := no_blocks hg h2.run hno
    obtain ⟨skips', r', st', f1, _, f3, _⟩ := C25_loose hg h.run chk t
    rw [h3] at f1
    cases f1
    have hsk : skips = [] := by
      rcases skips with _ | ⟨a, l⟩
      · rfl
      · obtain ⟨_, a2, a3, _⟩ := f3 0 a rfl
        exact absurd a2 (hno a a3.1)
    subst hsk
    rcases r with _ | m
    · simp only at h4
      have hst := acquire_nothing h3
      obtain ⟨hz, h4⟩ := h4
      rw [if_pos hp] at h4
      refine ⟨σ', ?_, h2, hout, fun _ => ?_⟩
      · rw [← h1]
        unfold Server.handleAcquire
        rw [h3]
        simp only [hz, hp, if_true]
      · have hf := recruit_frame (g := g) ({ σ with sched := σ'.sched, out := σ.out ++ ([] : List N).map .skip ++ [.shutdown s t] })
        rw [← h4.2] at hf
        obtain ⟨os, ho, hs⟩ := hf.out
        refine ⟨hst, hf.book, h4.1, os, ?_, hs⟩
        rw [ho]
        simp
    · simp only at h4
      exact absurd h4.2.2.2.2.1 (hno m h4.2.2.2.1)

theorem get_genuine (h : SInv g σ) {n : N} {s : S} (hn : ∀ n' ∈ g.nodes, g.key n = g.key n' → n = n')
    (hb : (σ.book.get (g.key n)).map (·.stream) = some s) : n ∈ g.nodes ∧ holder σ.out n = some s := by
  obtain ⟨l, h1, h2⟩ := Option.map_eq_some_iff.1 hb
  obtain ⟨h3, h4⟩ := h.entry _ (Book.get_mem h1)
  have h5 := hn _ h3 h4
  have h6 : n ∈ g.nodes := h5 ▸ h3
  exact ⟨h6, by rw [← h.book n h6]; exact hb⟩

/-- The return of any block. -/
theorem return_any (hg : g.Loose) (h : SInv g σ) {n : N} (hn : ∀ n' ∈ g.nodes, g.key n = g.key n' → n = n')
    (s : S) (status : BlockStatus) {pick : Nat → Finset N → N} (hp : LegalPick pick) :
    if holder σ.out n = some s then
      if status = .success ∨ status = .failed then
        ∃ σ', σ.safeRelease g pick n status s = .ok σ' ∧ SInv g σ' ∧
          ∀ m, m ≠ n → holder σ'.out m = holder σ.out m
      else σ.safeRelease g pick n status s = .error .runtimeError
    else σ.safeRelease g pick n status s = .ok σ := by
  by_cases hh : holder σ.out n = some s
  · have hnn : n ∈ g.nodes := h.toSCore.mem hg (by rw [hh]; exact Option.some_ne_none s)
    rw [if_pos hh]
    by_cases hs : status = .success ∨ status = .failed
    · rw [if_pos hs]
      obtain ⟨σ', h1, h2, _, h4⟩ := safeRelease_spec hg h hnn (s := s) hs hp
      rw [if_pos hh] at h4
      obtain ⟨os, h5, h6⟩ := h4
      refine ⟨σ', h1, h2, ?_⟩
      intro m hm
      rw [h5, holder_append, List.foldl_cons, fold_silent m os _ h6]
      simp only [holderStep]
      rw [if_neg (fun e => hm e.symm)]
    · rw [if_neg hs]
      have hb := (h.book n hnn).trans hh
      obtain ⟨⟨s1, e1⟩, _⟩ := (C24_loose_partial hg h.run).2 pick n hp
        ((h.held n).2 (by rw [hh]; exact Option.some_ne_none s))
      have he : σ.sched.releaseBlock g pick n status = .error .runtimeError := by
        unfold Sched.releaseBlock at e1 ⊢
        rcases hr : σ.sched.removeFromProcessing g n with e | st1
        · rw [hr] at e1; cases e1
        · cases status with
          | success => exact absurd (Or.inl rfl) hs
          | failed => exact absurd (Or.inr rfl) hs
          | created => rfl
          | processing => rfl
      unfold Server.safeRelease Server.release
      rw [if_pos (validReturn_iff.2 hb), he]
  · rw [if_neg hh]
    exact safeRelease_invalid (fun hb => hh (get_genuine h hn hb).2)

/-- What handling any message amounts to. -/
theorem handle_any (hg : g.Loose) (hserved : ∀ n ∈ g.nodes, g.task n ∈ cfg.served) (h : SInv g σ) {m : Msg N T}
    (hm : Genuine g m) (s : S) (chk : Nat → N → Check) {pick : Nat → Finset N → N} (hp : LegalPick pick) (now : Int) :
    (Fatal σ.out (.msg m s) → ∃ e, σ.handle g cfg chk pick now m s = .error e ∧
      (m = .clientException → e = .userException) ∧ (m = .other → e = .unexpectedMessage) ∧
      ((∃ n status, m = .release n status) → e = .runtimeError)) ∧
    (¬ Fatal σ.out (.msg m s) → ∃ σ', σ.handle g cfg chk pick now m s = .ok σ' ∧ SInv g σ' ∧
      (∀ n s', holder σ.out n = some s' → s' ≠ s → holder σ'.out n = some s') ∧
      ((∃ t, m = .acquire t) → ∀ n s', holder σ.out n = some s' → holder σ'.out n = some s')) := by
  cases m with
  | acquire t =>
    refine ⟨fun hf => absurd hf id, fun _ => ?_⟩
    obtain ⟨σ1, h1, h2, h3, _⟩ := acquire_any hg hserved h chk now t s
    have key : ∀ n s', holder σ.out n = some s' → holder (σ1.checkAll g).out n = some s' := by
      intro n s' hn
      rw [(checkAll_frame σ1).holder, h3 n (by rw [hn]; exact Option.some_ne_none s'), hn]
    refine ⟨σ1.checkAll g, ?_, h2.frame (checkAll_frame σ1), fun n s' hn _ => key n s' hn, fun _ => key⟩
    simp only [Server.handle, h1]
  | release n status =>
    have hr := return_any hg h hm s status hp
    constructor
    · intro hf
      obtain ⟨h1, h2, h3⟩ := hf
      rw [if_pos h1, if_neg (by rintro (e | e); exacts [h2 e, h3 e])] at hr
      refine ⟨.runtimeError, ?_, (by intro e; cases e), (by intro e; cases e), fun _ => rfl⟩
      simp only [Server.handle, hr]
    · intro hf
      by_cases hh : holder σ.out n = some s
      · rw [if_pos hh] at hr
        by_cases hs : status = .success ∨ status = .failed
        · rw [if_pos hs] at hr
          obtain ⟨σ1, h1, h2, h3⟩ := hr
          refine ⟨σ1.checkAll g, ?_, h2.frame (checkAll_frame σ1), ?_, by rintro ⟨t, e⟩; cases e⟩
          · simp only [Server.handle, h1]
          · intro m s' hm' hne
            rw [(checkAll_frame σ1).holder, h3 m ?_, hm']
            rintro rfl
            rw [hh] at hm'
            exact hne (Option.some.inj hm').symm
        · exact absurd ⟨hh, fun e => hs (Or.inl e), fun e => hs (Or.inr e)⟩ hf
      · rw [if_neg hh] at hr
        refine ⟨σ.checkAll g, ?_, h.frame (checkAll_frame σ), ?_, by rintro ⟨t, e⟩; cases e⟩
        · simp only [Server.handle, hr]
        · intro m s' hm' _
          rw [(checkAll_frame σ).holder, hm']
  | blockFailed n w =>
    refine ⟨fun hf => absurd hf id, fun _ => ?_⟩
    have hr := return_any hg h hm s .failed hp
    have hfr : ∀ σ1 : Server N T K S, Frame σ1 ((σ1.emit [.blockFailure n w]).checkAll g) := by
      intro σ1
      have hf : Frame σ1 (σ1.emit [.blockFailure n w]) := ⟨rfl, rfl, rfl, [.blockFailure n w], rfl, by simp [Silent]⟩
      exact hf.trans (checkAll_frame _)
    by_cases hh : holder σ.out n = some s
    · rw [if_pos hh, if_pos (Or.inr rfl)] at hr
      obtain ⟨σ1, h1, h2, h3⟩ := hr
      refine ⟨_, ?_, h2.frame (hfr σ1), ?_, by rintro ⟨t, e⟩; cases e⟩
      · simp only [Server.handle, h1]
      · intro m s' hm' hne
        rw [(hfr σ1).holder, h3 m ?_, hm']
        rintro rfl
        rw [hh] at hm'
        exact hne (Option.some.inj hm').symm
    · rw [if_neg hh] at hr
      refine ⟨_, ?_, h.frame (hfr σ), ?_, by rintro ⟨t, e⟩; cases e⟩
      · simp only [Server.handle, hr]
      · intro m s' hm' _
        rw [(hfr σ).holder, hm']
  | clientException =>
    exact ⟨fun _ => ⟨_, rfl, fun _ => rfl, (by intro e; cases e), (by rintro ⟨_, _, e⟩; cases e)⟩, fun hf => absurd trivial hf⟩
  | other =>
    exact ⟨fun _ => ⟨_, rfl, (by intro e; cases e), fun _ => rfl, (by rintro ⟨_, _, e⟩; cases e)⟩, fun hf => absurd trivial hf⟩

/-- What an iteration with any message amounts to. -/
theorem handleMessages_any (hg : g.Loose) (hserved : ∀ n ∈ g.nodes, g.task n ∈ cfg.served) (h : SInv g σ)
    {r : Server.Recv N T S} (hr : ∀ m s, r = .msg m s → Genuine g m) (chk : Nat → N → Check) {pick : Nat → Finset N → N}
    (hp : LegalPick pick) (now : Int) :
    (Fatal σ.out r → ∃ e, σ.handleMessages g cfg chk pick now r = .error e ∧
      ((∃ s, r = .msg .clientException s) → e = .userException) ∧
      ((∃ s, r = .msg .other s) → e = .unexpectedMessage) ∧
      ((∃ n status s, r = .msg (.release n status) s) → e = .runtimeError)) ∧
    (¬ Fatal σ.out r → ∃ σ', σ.handleMessages g cfg chk pick now r = .ok σ' ∧ SInv g σ' ∧
      ∀ n s', holder σ.out n = some s' → (∀ m s, r = .msg m s → s' ≠ s) → holder σ'.out n = some s') := by
  rcases hrr : r with ⟨m, s⟩ | _ | _
  · obtain ⟨h1, h2⟩ := handle_any (cfg := cfg) hg hserved h (hr m s hrr) s chk hp now
    constructor
    · intro hf
      obtain ⟨e, a1, a2, a3, a4⟩ := h1 hf
      refine ⟨e, a1, ?_, ?_, ?_⟩
      · rintro ⟨s', e⟩; cases e; exact a2 rfl
      · rintro ⟨s', e⟩; cases e; exact a3 rfl
      · rintro ⟨n, st, s', e⟩; cases e; exact a4 ⟨_, _, rfl⟩
    · intro hf
      obtain ⟨σ1, a1, a2, a3, _⟩ := h2 hf
      exact ⟨σ1, a1, a2, fun n s' hn hne => a3 n s' hn (hne m s rfl)⟩
  · refine ⟨fun hf => absurd hf id, fun _ => ?_⟩
    unfold Server.handleMessages
    simp only
    split
    · exact ⟨σ, rfl, h, fun n s' hn _ => hn⟩
    · rename_i t ht
      split
      · exact ⟨σ, rfl, h, fun n s' hn _ => hn⟩
      · rename_i s rest hs
        obtain ⟨_, h2⟩ := handle_any (cfg := cfg) hg hserved (h.pending (upd σ.pending t rest))
          (m := .acquire t) trivial s chk hp now
        obtain ⟨σ1, a1, a2, _, a4⟩ := h2 id
        exact ⟨σ1, a1, a2, fun n s' hn _ => a4 ⟨t, rfl⟩ n s' hn⟩
  · exact ⟨fun hf => absurd hf id, fun _ => ⟨σ, rfl, h, fun n s' hn _ => hn⟩⟩

theorem iteration_any (hg : g.Loose) (hserved : ∀ n ∈ g.nodes, g.task n ∈ cfg.served) (h : SInv g σ)
    {k : Server.Tick N T S} (hk : AnyTick g k) :
    (Fatal σ.out k.recv → ∃ e, σ.iteration g cfg k = .error e ∧
      ((∃ s, k.recv = .msg .clientException s) → e = .userException) ∧
      ((∃ s, k.recv = .msg .other s) → e = .unexpectedMessage) ∧
      ((∃ n status s, k.recv = .msg (.release n status) s) → e = .runtimeError)) ∧
    (¬ Fatal σ.out k.recv → ∃ σ', σ.iteration g cfg k = .ok σ' ∧ SInv g σ' ∧
      ∀ n s', holder σ.out n = some s' → (∀ m s, k.recv = .msg m s → s' ≠ s) → k.closed s' = false →
        holder σ'.out n = some s') := by
  have hmsg := handleMessages_any (cfg := cfg) hg hserved h hk.1 k.chk hk.2.1 k.now
  constructor
  · intro hf
    obtain ⟨e, a1, a2⟩ := hmsg.1 hf
    refine ⟨e, ?_, a2⟩
    unfold Server.iteration
    rw [a1]
  · intro hf
    obtain ⟨σ1, a1, a2, a3⟩ := hmsg.2 hf
    obtain ⟨σ2, os, L, b1, b2, _, _, _, _, _, _, b3, _, b4⟩ := checkLost_ok hg a2 hk.2.2 k.closed k.clock
    have key : ∀ n s', holder σ.out n = some s' → (∀ m s, k.recv = .msg m s → s' ≠ s) → k.closed s' = false →
        holder σ2.out n = some s' := by
      intro n s' hn hne hc
      have h5 := a3 n s' hn hne
      rw [b4, if_neg, h5]
      intro hL
      obtain ⟨s'', h6, h7⟩ := (b3 n).1 hL
      rw [h5] at h6
      cases h6
      rw [hc] at h7
      cases h7
    unfold Server.iteration
    rw [a1]
    simp only
    rw [b1]
    refine ⟨_, rfl, ?_, ?_⟩
    · split
      · exact b2.frame (checkAll_frame σ2)
      · exact b2
    · intro n s' hn hne hc
      split
      · rw [(checkAll_frame σ2).holder]; exact key n s' hn hne hc
      · exact key n s' hn hne hc

/-- If nobody who has a block is disconnected, looking for lost blocks changes nothing. -/
theorem checkLost_none (h : SInv g σ) {pick : N → Nat → Finset N → N} {closed : S → Bool} {clock : Nat → Int}
    (hc : ∀ n s, holder σ.out n = some s → closed s = false) : σ.checkLost g pick closed clock = .ok σ := by
  have hall : ∀ e ∈ σ.book, closed e.2.stream = false := by
    intro e he
    obtain ⟨h3, h4⟩ := h.entry e he
    have := h.book _ h3
    rw [← h4, Book.get_of_mem (k := e.1) (l := e.2) h.nodup he] at this
    exact hc _ _ this.symm
  have h1 : σ.book.filter (fun e => closed e.2.stream) = [] := by
    rw [List.filter_eq_nil_iff]
    intro e he
    rw [hall e he]
    exact Bool.false_ne_true
  have h2 : σ.book.filter (fun e => ! closed e.2.stream) = σ.book := by
    rw [List.filter_eq_self]
    intro e he
    rw [hall e he]
    rfl
  unfold Server.checkLost
  rw [Book.getLost_none closed clock h.nodup]
  simp only [h1, h2]
  rfl

/-- What a client without blocks can do. -/
theorem iteration_stranger (hg : g.Loose) (hserved : ∀ n ∈ g.nodes, g.task n ∈ cfg.served) (h : SInv g σ)
    {k : Server.Tick N T S} (hk : AnyTick g k) {m : Msg N T} {s : S} (hr : k.recv = .msg m s)
    (hs : ∀ n, holder σ.out n ≠ some s) (hm : ∀ t, m = .acquire t → t ∉ cfg.served)
    (hc : ∀ n s', holder σ.out n = some s' → k.closed s' = false) (he : σ.iteration g cfg k = .ok σ') :
    σ'.sched = σ.sched ∧ σ'.book = σ.book ∧ σ'.pending = σ.pending ∧ evs σ'.out = evs σ.out ∧
    ∀ s' t, σ'.out.count (.shutdown s' t) = σ.out.count (.shutdown s' t) + if m = .acquire t ∧ s = s' then 1 else 0 := by
  have hfr : ∀ {σ σ' : Server N T K S}, Frame σ σ' → ∀ s' t, σ'.out.count (.shutdown s' t) = σ.out.count (.shutdown s' t) := by
    intro σ σ' hf s' t
    obtain ⟨os, h1, h2⟩ := hf.out
    rw [h1, List.count_append, List.count_eq_zero.2 (fun hm => h2 (.shutdown s' t) hm), Nat.add_zero]
  have hx : ∃ σ1, σ.handle g cfg k.chk k.pick k.now m s = .ok σ1 ∧ SInv g σ1 ∧ σ1.sched = σ.sched ∧ σ1.book = σ.book ∧
      σ1.pending = σ.pending ∧ evs σ1.out = evs σ.out ∧ (∀ n, holder σ1.out n = holder σ.out n) ∧
      ∀ s' t, σ1.out.count (.shutdown s' t) = σ.out.count (.shutdown s' t) + if m = .acquire t ∧ s = s' then 1 else 0 := by
    have hframe : ∀ σ1, Frame σ σ1 → (∀ t, m ≠ .acquire t) →
        SInv g σ1 ∧ σ1.sched = σ.sched ∧ σ1.book = σ.book ∧
        σ1.pending = σ.pending ∧ evs σ1.out = evs σ.out ∧ (∀ n, holder σ1.out n = holder σ.out n) ∧
        ∀ s' t, σ1.out.count (.shutdown s' t) = σ.out.count (.shutdown s' t) + if m = .acquire t ∧ s = s' then 1 else 0 := by
      intro σ1 hf hm
      refine ⟨h.frame hf, hf.sched, hf.book, hf.pending, hf.evs, hf.holder, ?_⟩
      intro s' t
      rw [hfr hf, if_neg (fun hc => hm t hc.1), Nat.add_zero]
    cases m with
    | acquire t =>
      obtain ⟨σ1, h1, h2, _, h4⟩ := acquire_any hg hserved h k.chk k.now t s
      obtain ⟨a1, a2, a3, os, a4, a5⟩ := h4 (hm t rfl)
      have hf := checkAll_frame (g := g) σ1
      refine ⟨σ1.checkAll g, ?_, h2.frame hf, hf.sched.trans a1, hf.book.trans a2, hf.pending.trans a3, ?_, ?_, ?_⟩
      · simp only [Server.handle, h1]
      · rw [hf.evs, a4, evs_append]
        have : evs (.shutdown s t :: os) = evs os := rfl
        rw [this, evs_silent a5, List.append_nil]
      · intro n
        rw [hf.holder, a4, holder_append, List.foldl_cons, fold_silent n os _ a5]
        rfl
      · intro s' t'
        rw [hfr hf, a4, List.count_append, List.count_cons, List.count_eq_zero.2 (fun hm => a5 (.shutdown s' t') hm)]
        by_cases hc : s = s' ∧ t = t'
        · obtain ⟨rfl, rfl⟩ := hc
          simp
        · rw [if_neg (show ¬ (Msg.acquire (N := N) t = .acquire t' ∧ s = s') from fun hh => hc ⟨hh.2, by injection hh.1⟩)]
          have : ((Out.shutdown s t : Out N T S) == .shutdown s' t') = false := by
            rw [beq_eq_false_iff_ne]
            intro hh
            injection hh with e1 e2
            exact hc ⟨e1, e2⟩
          rw [this]
          rfl
    | release n status =>
      have h1 := return_any hg h (hk.1 _ _ hr) s status hk.2.1
      rw [if_neg (hs n)] at h1
      refine ⟨σ.checkAll g, ?_, hframe _ (checkAll_frame σ) (by intro t e; cases e)⟩
      simp only [Server.handle, h1]
    | blockFailed n w =>
      have h1 := return_any hg h (hk.1 _ _ hr) s .failed hk.2.1
      rw [if_neg (hs n)] at h1
      have hf : Frame σ (σ.emit [.blockFailure n w]) := ⟨rfl, rfl, rfl, [.blockFailure n w], rfl, by simp [Silent]⟩
      refine ⟨(σ.emit [.blockFailure n w]).checkAll g, ?_, hframe _ (hf.trans (checkAll_frame _)) (by intro t e; cases e)⟩
      simp only [Server.handle, h1]
    | clientException =>
      unfold Server.iteration at he
      rw [hr] at he
      cases he
    | other =>
      unfold Server.iteration at he
      rw [hr] at he
      cases he
  obtain ⟨σ1, h1, h2, h3, h4, h5, h6, h7, h8⟩ := hx
  have h9 := checkLost_none h2 (pick := k.pickLost) (closed := k.closed) (clock := k.clock) (by
    intro n s' hn
    rw [h7] at hn
    exact hc n s' hn)
  unfold Server.iteration at he
  rw [hr] at he
  simp only [Server.handleMessages, h1, h9] at he
  cases he
  split
  · have hf := checkAll_frame (g := g) σ1
    refine ⟨hf.sched.trans h3, hf.book.trans h4, hf.pending.trans h5, hf.evs.trans h6, ?_⟩
    intro s' t
    rw [hfr hf, h8]
  · exact ⟨h3, h4, h5, h6, h8⟩

/-! ## Announcements -/

/-- The tasks outside of the pipeline that were announced as done are those in `extra`, and each was announced once. -/
def ToldOnce (g : DGraph N T K) (extra : List T) (σ : Server N T K S) : Prop :=
  ∀ t, t ∉ g.tasks → (σ.out.count (.taskDone t) = if t ∈ extra then 1 else 0) ∧ (t ∈ σ.finished ↔ t ∈ extra)

theorem ToldOnce.emit (h : ToldOnce g extra σ) {os : List (Out N T S)} (ho : ∀ t, .taskDone t ∉ os)
    (h1 : σ'.out = σ.out ++ os) (h2 : σ'.finished = σ.finished) : ToldOnce g extra σ' := by
  intro t ht
  rw [h1, h2, List.count_append, List.count_eq_zero.2 (ho t), Nat.add_zero]
  exact h t ht

theorem announced_recruit (h : ToldOnce g extra σ) : ToldOnce g extra (σ.recruit g) := by
  have key : ∀ (l : List T) (σ : Server N T K S), ToldOnce g extra σ → ToldOnce g extra (l.foldl (fun σ t =>
      if t ∈ σ.started then σ
      else { (σ.emit [.taskStart t, .callback t]) with started := σ.started ++ [t] }) σ) := by
    intro l
    induction l with
    | nil => intro σ h; exact h
    | cons t l ih =>
      intro σ h
      rw [List.foldl_cons]
      refine ih _ ?_
      split
      · exact h
      · exact h.emit (os := [.taskStart t, .callback t]) (by simp) rfl rfl
  exact (key _ σ h).emit (os := [.recruit (σ.sched.getReadyTasks g)]) (by simp) rfl rfl

theorem announced_checkAll (h : ToldOnce g extra σ) : ToldOnce g extra (σ.checkAll g) := by
  have key : ∀ (l : List T) (σ : Server N T K S), (∀ t ∈ l, t ∈ g.tasks) → ToldOnce g extra σ →
      ToldOnce g extra (l.foldl (fun σ t =>
        if (σ.sched.states t).isDone then
          if t ∈ σ.finished then σ
          else { (σ.emit [.taskDone t]) with finished := σ.finished ++ [t] }
        else { σ with allDone := false }) σ) := by
    intro l
    induction l with
    | nil => intro σ _ h; exact h
    | cons t l ih =>
      intro σ hl h
      rw [List.foldl_cons]
      refine ih _ (fun t h => hl t (List.mem_cons_of_mem _ h)) ?_
      have ht := hl t List.mem_cons_self
      split
      · split
        · exact h
        · intro t' ht'
          have hne : t' ≠ t := fun e => ht' (e ▸ ht)
          have hne' : t ≠ t' := fun e => hne e.symm
          obtain ⟨h1, h2⟩ := h t' ht'
          constructor
          · change List.count (Out.taskDone t') (σ.out ++ [Out.taskDone t]) = _
            rw [List.count_append, h1]
            simp [hne']
          · change t' ∈ σ.finished ++ [t] ↔ _
            rw [← h2]
            simp [hne]
      · exact h
  unfold Server.checkAll
  simp only
  have h1 := key (Server.checked g) { σ with allDone := true } (fun t ht => mem_checked.1 ht) h
  split
  · exact h1
  · exact h1

theorem announced_open {extra' : List T} (hs : ∀ t ∈ extra, t ∈ extra') (he : ∀ t ∈ extra', t ∉ g.tasks)
    (h : ToldOnce g extra σ) : ToldOnce g extra' (σ.checkAllOpen g extra') := by
  have key : ∀ (l : List T) (L : List T) (σ : Server N T K S), ToldOnce g L σ → (∀ t ∈ l, t ∉ g.tasks) →
      ToldOnce g (L ++ l) (l.foldl (fun σ t =>
        if t ∈ σ.finished then σ
        else { (σ.emit [.taskDone t]) with finished := σ.finished ++ [t] }) σ) := by
    intro l
    induction l with
    | nil => intro L σ h _; rw [List.append_nil]; exact h
    | cons t l ih =>
      intro L σ h hl
      rw [List.foldl_cons]
      have : L ++ t :: l = (L ++ [t]) ++ l := by simp
      rw [this]
      refine ih _ _ ?_ (fun t h => hl t (List.mem_cons_of_mem _ h))
      have ht := hl t List.mem_cons_self
      split
      · rename_i hf
        intro t' ht'
        have h0 := (h t ht).2.1 hf
        have hiff : t' ∈ L ++ [t] ↔ t' ∈ L := by
          rw [List.mem_append, List.mem_singleton]
          exact ⟨fun h => h.elim id (fun e => e ▸ h0), Or.inl⟩
        simp only [hiff]
        exact h t' ht'
      · rename_i hf
        intro t' ht'
        obtain ⟨h1, h2⟩ := h t' ht'
        change List.count (Out.taskDone t') (σ.out ++ [Out.taskDone t]) = _ ∧ (t' ∈ σ.finished ++ [t] ↔ _)
        rw [List.count_append, h1]
        by_cases hne : t' = t
        · subst hne
          have h0 : t' ∉ L := fun hc => hf (h2.2 hc)
          simp [h0]
        · have hne' : t ≠ t' := fun e => hne e.symm
          simp [hne, hne', h2]
  have h1 := key extra' extra (σ.checkAll g) (announced_checkAll h) he
  intro t ht
  obtain ⟨a, b⟩ := h1 t ht
  have hiff : t ∈ extra ++ extra' ↔ t ∈ extra' := by
    rw [List.mem_append]
    exact ⟨fun h => h.elim (hs t) id, Or.inr⟩
  simp only [hiff] at a b
  exact ⟨a, b⟩

theorem announced_acquire {chk : Nat → N → Check} {now : Int} {t : T} {s : S} (h : ToldOnce g extra σ)
    (hr : σ.handleAcquire g cfg chk now t s = .ok σ') : ToldOnce g extra σ' := by
  unfold Server.handleAcquire at hr
  generalize σ.sched.acquireBlock g chk t = z at hr
  rcases z with e | ⟨skips, r, st'⟩
  · cases hr
  · have h1 : ToldOnce g extra (({ σ with sched := st' } : Server N T K S).emit (skips.map .skip)) :=
      h.emit (os := skips.map .skip) (by simp) rfl rfl
    simp only at hr
    generalize ({ σ with sched := st' } : Server N T K S).emit (skips.map .skip) = σ1 at h1 hr
    rcases r with _ | n
    · simp only at hr
      split at hr
      · cases hr
      · split at hr
        · cases hr
          exact announced_recruit (h1.emit (os := [.shutdown s t]) (by simp) rfl rfl)
        · split at hr
          · cases hr; exact h1
          · cases hr
    · simp only at hr
      split at hr
      · cases hr
      · cases hr
        exact h1.emit (os := [.send s n, .acquired t]) (by simp) rfl rfl

theorem announced_release (he : ∀ t ∈ extra, t ∉ g.tasks) {pick : Nat → Finset N → N} {n : N} {status : BlockStatus}
    (h : ToldOnce g extra σ) (hr : σ.releaseOpen g extra pick n status = .ok σ') : ToldOnce g extra σ' := by
  unfold Server.releaseOpen at hr
  split at hr
  · cases hr
  · cases hr
    refine announced_recruit (announced_open (fun t h => h) he ?_)
    exact h.emit (os := [.release n status, .released (g.task n)]) (by simp) rfl rfl

theorem announced_safeRelease (he : ∀ t ∈ extra, t ∉ g.tasks) {pick : Nat → Finset N → N} {n : N} {status : BlockStatus}
    {s : S} (h : ToldOnce g extra σ) (hr : σ.safeReleaseOpen g extra pick n status s = .ok σ') :
    ToldOnce g extra σ' := by
  unfold Server.safeReleaseOpen at hr
  split at hr
  · split at hr
    · cases hr
    · rename_i σ1 h1
      split at hr
      · cases hr
      · have h2 := announced_release he h h1
        cases hr
        exact h2
  · cases hr; exact h

theorem addKeys_mono (m : Msg N T) : ∀ t ∈ extra, t ∈ Server.addKeys g extra m := by
  intro t ht
  cases m with
  | acquire t' =>
    simp only [Server.addKeys]
    split
    · exact ht
    · exact List.mem_append_left _ ht
  | _ => exact ht

theorem announced_handle (he : ∀ t ∈ extra, t ∉ g.tasks) {chk : Nat → N → Check} {pick : Nat → Finset N → N} {now : Int}
    {m : Msg N T} {s : S} {extra' : List T} (h : ToldOnce g extra σ)
    (hr : σ.handleOpen g cfg extra chk pick now m s = .ok (σ', extra')) : ToldOnce g extra' σ' := by
  unfold Server.handleOpen at hr
  simp only at hr
  split at hr
  · cases hr
  · rename_i σ1 h1
    cases hr
    refine announced_open (addKeys_mono m) (addKeys_fresh he m) ?_
    cases m with
    | acquire t => exact announced_acquire h h1
    | release n status => exact announced_safeRelease he h h1
    | blockFailed n w =>
      simp only at h1
      split at h1
      · cases h1
      · rename_i σ2 h2
        cases h1
        exact (announced_safeRelease he h h2).emit (os := [.blockFailure n w]) (by simp) rfl rfl
    | clientException => cases h1
    | other => cases h1

theorem announced_messages (he : ∀ t ∈ extra, t ∉ g.tasks) {chk : Nat → N → Check} {pick : Nat → Finset N → N}
    {now : Int} {r : Server.Recv N T S} {extra' : List T} (h : ToldOnce g extra σ)
    (hr : σ.handleMessagesOpen g cfg extra chk pick now r = .ok (σ', extra')) : ToldOnce g extra' σ' := by
  cases r with
  | msg m s => exact announced_handle he h hr
  | closed => cases hr; exact h
  | nothing =>
    unfold Server.handleMessagesOpen at hr
    simp only at hr
    split at hr
    · cases hr; exact h
    · split at hr
      · cases hr; exact h
      · rename_i t _ _ s rest _
        have h1 : ToldOnce g extra { σ with pending := upd σ.pending t rest } := h
        exact announced_handle he h1 hr

theorem announced_lost (he : ∀ t ∈ extra, t ∉ g.tasks) (pick : N → Nat → Finset N → N) :
    ∀ (ns : List N) (σ σ' : Server N T K S), ToldOnce g extra σ →
      Server.releaseLostOpen g extra pick ns σ = .ok σ' → ToldOnce g extra σ'
  | [], σ, σ', h, hr => by cases hr; exact h
  | n :: ns, σ, σ', h, hr => by
    unfold Server.releaseLostOpen at hr
    split at hr
    · cases hr
    · rename_i σ1 h1
      exact announced_lost he pick ns σ1 σ' (announced_release he h h1) hr

theorem announced_iteration {x y : OpenServer N T K S} (he : ∀ t ∈ x.extra, t ∉ g.tasks) {k : Server.Tick N T S}
    (h : ToldOnce g x.extra x.srv) (hr : x.iteration g cfg k = .ok y) : ToldOnce g y.extra y.srv := by
  unfold OpenServer.iteration at hr
  rcases h1 : x.srv.handleMessagesOpen g cfg x.extra k.chk k.pick k.now k.recv with e | ⟨σ1, extra⟩
  · rw [h1] at hr; cases hr
  · rw [h1] at hr
    have hf := handleMessagesOpen_fresh he h1
    have ha := announced_messages he h h1
    simp only at hr
    rcases h2 : σ1.checkLostOpen g extra k.pickLost k.closed k.clock with e | σ2
    · rw [h2] at hr; cases hr
    · rw [h2] at hr
      have hb : ToldOnce g extra σ2 := by
        unfold Server.checkLostOpen at h2
        split at h2
        · cases h2
        · rename_i lost book _
          have h3 : ToldOnce g extra { σ1 with book := book } := ha
          exact announced_lost hf _ _ _ _ h3 h2
      cases hr
      change ToldOnce g extra (if k.late then _ else _)
      split
      · exact announced_open (fun t h => h) hf hb
      · exact hb

end Verif
