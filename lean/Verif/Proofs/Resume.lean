import Verif.Spec.Resume
import Verif.Proofs.ServerEnd
import Verif.Proofs.Serial

/-! # Runs with the scheduler of an earlier run -/

set_option linter.unusedSectionVars false

namespace Verif

open Spec

variable {N T K S : Type} [DecidableEq N] [DecidableEq T] [DecidableEq K] [DecidableEq S]
  {g : DGraph N T K} {cfg : SConf T} {σ σ' : Server N T K S} {ph : Book N K S}

/-- The server with further entries in its book. -/
def over (ph : Book N K S) (σ : Server N T K S) : Server N T K S := { σ with book := ph ++ σ.book }

theorem recruit_over (σ : Server N T K S) : (over ph σ).recruit g = over ph (σ.recruit g) := by
  have key : ∀ (l : List T) (σ : Server N T K S), l.foldl (fun σ t =>
      if t ∈ σ.started then σ
      else { (σ.emit [.taskStart t, .callback t]) with started := σ.started ++ [t] }) (over ph σ) =
      over ph (l.foldl (fun σ t =>
      if t ∈ σ.started then σ
      else { (σ.emit [.taskStart t, .callback t]) with started := σ.started ++ [t] }) σ) := by
    intro l
    induction l with
    | nil => intro σ; rfl
    | cons x l ih =>
      intro σ
      rw [List.foldl_cons, List.foldl_cons, ← ih]
      congr 1
      change (if x ∈ σ.started then _ else _) = _
      split <;> rfl
  unfold Server.recruit
  simp only
  change (List.foldl _ (over ph σ) (σ.sched.getReadyTasks g)).emit [.recruit (σ.sched.getReadyTasks g)] = _
  rw [key]
  rfl

theorem checkAll_over (σ : Server N T K S) : (over ph σ).checkAll g = over ph (σ.checkAll g) := by
  have key : ∀ (l : List T) (σ : Server N T K S), l.foldl (fun σ t =>
      if (σ.sched.states t).isDone then
        if t ∈ σ.finished then σ
        else { (σ.emit [.taskDone t]) with finished := σ.finished ++ [t] }
      else { σ with allDone := false }) (over ph σ) =
      over ph (l.foldl (fun σ t =>
      if (σ.sched.states t).isDone then
        if t ∈ σ.finished then σ
        else { (σ.emit [.taskDone t]) with finished := σ.finished ++ [t] }
      else { σ with allDone := false }) σ) := by
    intro l
    induction l with
    | nil => intro σ; rfl
    | cons x l ih =>
      intro σ
      rw [List.foldl_cons, List.foldl_cons, ← ih]
      congr 1
      change (if (σ.sched.states x).isDone then (if x ∈ σ.finished then _ else _) else _) = _
      split
      · split <;> rfl
      · rfl
  unfold Server.checkAll
  simp only
  have h0 : ({ over ph σ with allDone := true } : Server N T K S) = over ph { σ with allDone := true } := rfl
  rw [h0, key]
  generalize List.foldl _ ({ σ with allDone := true } : Server N T K S) (Server.checked g) = τ
  change (if τ.allDone = true then _ else _) = _
  split <;> rfl

theorem release_over (pick : Nat → Finset N → N) (σ : Server N T K S) (n : N) (status : BlockStatus) :
    (over ph σ).release g pick n status = (σ.release g pick n status).map (over ph) := by
  unfold Server.release
  change (match σ.sched.releaseBlock g pick n status with | .error e => _ | .ok st' => _) = _
  cases σ.sched.releaseBlock g pick n status with
  | error e => rfl
  | ok st' =>
    simp only [Except.map]
    have : ({ over ph σ with sched := st' } : Server N T K S).emit [.release n status, .released (g.task n)] =
      over ph (({ σ with sched := st' } : Server N T K S).emit [.release n status, .released (g.task n)]) := rfl
    rw [this, checkAll_over, recruit_over]

theorem releaseLost_over (pick : N → Nat → Finset N → N) : ∀ (L : List N) (σ : Server N T K S),
    Server.releaseLost g pick L (over ph σ) = (Server.releaseLost g pick L σ).map (over ph)
  | [], _ => rfl
  | n :: L, σ => by
    unfold Server.releaseLost
    rw [release_over]
    cases σ.release g (pick n) n .failed with
    | error e => rfl
    | ok σ1 => exact releaseLost_over pick L σ1

theorem get_over_none {b : Book N K S} {k : K} (h : ph.get k = none) : Book.get (ph ++ b) k = b.get k := by
  unfold Book.get at *
  rw [Option.map_eq_none_iff] at h
  rw [List.find?_append, h]
  rfl

theorem get_over_some {b : Book N K S} {k : K} {l : BlockLog N S} (h : ph.get k = some l) :
    Book.get (ph ++ b) k = some l := by
  unfold Book.get at *
  rw [Option.map_eq_some_iff] at h
  obtain ⟨a, h, rfl⟩ := h
  rw [List.find?_append, h]
  rfl

theorem release_book {pick : Nat → Finset N → N} {n : N} {status : BlockStatus}
    (h : σ.release g pick n status = .ok σ') : σ'.book = σ.book := by
  unfold Server.release at h
  split at h
  · cases h
  · cases h
    rw [(recruit_frame _).book, (checkAll_frame _).book]
    rfl

theorem safeRelease_over {pick : Nat → Finset N → N} {n : N} {status : BlockStatus} {s : S}
    (hn : ph.get (g.key n) = none) : (over ph σ).safeRelease g pick n status s =
      (σ.safeRelease g pick n status s).map (over ph) := by
  unfold Server.safeRelease
  have hv : (over ph σ).book.isValidReturn (g.key n) s = σ.book.isValidReturn (g.key n) s := by
    unfold Book.isValidReturn
    change (match Book.get (ph ++ σ.book) (g.key n) with | none => _ | some log => _) = _
    rw [get_over_none hn]
    cases σ.book.get (g.key n) <;> rfl
  rw [hv, release_over]
  split
  · cases hr : σ.release g pick n status with
    | error e => rfl
    | ok σ1 =>
      simp only [Except.map]
      have hd : (over ph σ1).book.notifyReturned (g.key n) s =
          (σ1.book.notifyReturned (g.key n) s).map (ph ++ ·) := by
        unfold Book.notifyReturned Book.del
        change (match Book.get (ph ++ σ1.book) (g.key n) with | none => _ | some log => _) = _
        rw [get_over_none hn]
        cases h1 : σ1.book.get (g.key n) with
        | none => rfl
        | some l =>
          simp only
          split
          · change (match Book.get (ph ++ σ1.book) (g.key n) with | none => _ | some log => _) = _
            rw [get_over_none hn, h1]
            simp only [Except.map]
            congr 1
            change (ph ++ σ1.book).filter _ = _
            rw [List.filter_append]
            congr 1
            rw [List.filter_eq_self]
            intro e he
            rw [decide_eq_true_eq]
            intro hc
            exact Book.get_none_iff.1 hn (List.mem_map.2 ⟨e, he, hc⟩)
          · rfl
      rw [hd]
      cases σ1.book.notifyReturned (g.key n) s with
      | error e => rfl
      | ok b => rfl
  · rfl

theorem handleAcquire_over {chk : Nat → N → Check} {now : Int} {t : T} {s : S} {τ : Server N T K S}
    (h : (over ph σ).handleAcquire g cfg chk now t s = .ok τ) :
    ∃ τ', σ.handleAcquire g cfg chk now t s = .ok τ' ∧ τ = over ph τ' := by
  unfold Server.handleAcquire at h ⊢
  change (match σ.sched.acquireBlock g chk t with | .error e => _ | .ok (skips, r, st') => _) = _ at h
  rcases ha : σ.sched.acquireBlock g chk t with e | ⟨skips, r, st'⟩
  · rw [ha] at h; cases h
  rw [ha] at h
  simp only at h ⊢
  cases r with
  | none =>
    simp only at h ⊢
    split at h
    · cases h
    · rename_i h1
      rw [if_neg h1]
      split at h
      · rename_i h2
        rw [if_pos h2]
        cases h
        refine ⟨_, rfl, ?_⟩
        rw [← recruit_over]
        rfl
      · rename_i h2
        rw [if_neg h2]
        split at h
        · rename_i h3
          rw [if_pos h3]
          cases h
          exact ⟨_, rfl, rfl⟩
        · cases h
  | some n =>
    simp only at h ⊢
    have hb : ((({ over ph σ with sched := st' } : Server N T K S).emit (skips.map .skip)).book) =
      ph ++ σ.book := rfl
    have hb' : ((({ σ with sched := st' } : Server N T K S).emit (skips.map .skip)).book) = σ.book := rfl
    rw [hb] at h
    rw [hb']
    unfold Book.notifySent at h ⊢
    cases hp : Book.get (ph ++ σ.book) (g.key n) with
    | some l => rw [hp] at h; cases h
    | none =>
      rw [hp] at h
      have hq : ph.get (g.key n) = none := by
        cases hc : ph.get (g.key n) with
        | none => rfl
        | some l => rw [get_over_some hc] at hp; cases hp
      rw [get_over_none hq] at hp
      rw [hp]
      cases h
      refine ⟨_, rfl, ?_⟩
      change _ = { σ with sched := st', out := _, book := _ }
      simp only [List.append_assoc]
      rfl

/-- Blocks may be taken out of the book. -/
theorem SInv.lost (hg : g.Loose) (h : SInv g σ) (p : K × BlockLog N S → Bool) :
    SLost g { σ with book := σ.book.filter (fun e => ! p e) } ((σ.book.filter p).map (·.2.block)) := by
  have hkey : ∀ n ∈ g.nodes, ∀ e ∈ σ.book, e.1 = g.key n → e.2.block = n := by
    intro n hn e he hk
    obtain ⟨h1, h2⟩ := h.entry e he
    exact hg.key_inj _ h1 n hn (h2.symm.trans hk)
  refine ⟨⟨h.run, h.held⟩, Book.nodup_filter h.nodup, ?_, ?_, ?_, ?_⟩
  · intro e he
    exact h.entry e (List.mem_of_mem_filter he)
  · refine List.Nodup.map_on ?_ (List.Nodup.filter _ h.nodup.of_map)
    intro a ha b hb hab
    have ha' := List.mem_of_mem_filter ha
    have hb' := List.mem_of_mem_filter hb
    refine List.inj_on_of_nodup_map h.nodup ha' hb' ?_
    rw [(h.entry a ha').2, (h.entry b hb').2, hab]
  · intro n hn
    obtain ⟨e, he, rfl⟩ := List.mem_map.1 hn
    obtain ⟨h1, h2⟩ := List.mem_filter.1 he
    obtain ⟨h3, h4⟩ := h.entry e h1
    refine ⟨?_, ?_⟩
    · change Book.get (σ.book.filter (fun e => ! p e)) (g.key e.2.block) = none
      rw [Book.get_none_iff]
      intro hm
      obtain ⟨e', he', hk⟩ := List.mem_map.1 hm
      obtain ⟨h5, h6⟩ := List.mem_filter.1 he'
      have : e' = e := List.inj_on_of_nodup_map h.nodup h5 h1 (hk.trans h4.symm)
      rw [this, h2] at h6
      cases h6
    · change holder σ.out e.2.block ≠ none
      rw [← h.book _ h3, ← h4, Book.get_of_mem (k := e.1) (l := e.2) h.nodup h1]
      simp
  · intro n hn hnL
    change (Book.get (σ.book.filter (fun e => ! p e)) (g.key n)).map _ = holder σ.out n
    rw [← h.book n hn]
    cases hgn : σ.book.get (g.key n) with
    | none =>
      have : Book.get (σ.book.filter (fun e => ! p e)) (g.key n) = none := by
        rw [Book.get_none_iff] at hgn ⊢
        intro hm
        obtain ⟨e, he, hk⟩ := List.mem_map.1 hm
        exact hgn (List.mem_map.2 ⟨e, List.mem_of_mem_filter he, hk⟩)
      rw [this]
    | some l =>
      have h3 := Book.get_mem hgn
      have h5 : p (g.key n, l) = false := by
        cases hc : p (g.key n, l) with
        | false => rfl
        | true => exact absurd (List.mem_map.2 ⟨_, List.mem_filter.2 ⟨h3, hc⟩, hkey n hn _ h3 rfl⟩) hnL
      rw [Book.get_of_mem (Book.nodup_filter h.nodup) (List.mem_filter.2 ⟨h3, by simp [h5]⟩)]

/-- The blocks of `ph` stay with their holders. -/
theorem SInv.phantom (h : SInv g (over ph σ)) {n : N} (hn : n ∈ g.nodes) {l : BlockLog N S}
    (hl : ph.get (g.key n) = some l) : holder σ.out n = some l.stream := by
  have := h.book n hn
  change (Book.get (ph ++ σ.book) (g.key n)).map _ = holder σ.out n at this
  rw [get_over_some hl] at this
  exact this.symm

theorem SInv.frame_over (h : SInv g (over ph σ)) (hf : Frame σ σ') : SInv g (over ph σ') :=
  h.frame ⟨hf.sched, by change ph ++ σ'.book = ph ++ σ.book; rw [hf.book], hf.pending, hf.out⟩

/-- A block of `ph` is not accepted back, whoever sends it. -/
theorem safeRelease_phantom (h : SInv g (over ph σ)) {pick : Nat → Finset N → N} {n : N} {status : BlockStatus} {s : S}
    (hn : ph.get (g.key n) ≠ none) : σ.safeRelease g pick n status s = .ok σ := by
  refine safeRelease_invalid ?_
  have : σ.book.get (g.key n) = none := by
    rw [Book.get_none_iff]
    intro hm
    cases hl : ph.get (g.key n) with
    | none => exact hn hl
    | some l =>
      have h1 : g.key n ∈ ph.map (·.1) := List.mem_map.2 ⟨_, Book.get_mem hl, rfl⟩
      have := h.nodup
      change ((ph ++ σ.book).map (·.1)).Nodup at this
      rw [List.map_append, List.nodup_append] at this
      exact this.2.2 _ h1 _ hm rfl
  rw [this]
  simp

/-- What happens between the two states does not concern block `n`. -/
def Apart (n : N) (σ σ' : Server N T K S) : Prop :=
  ∃ es, evs σ'.out = evs σ.out ++ es ∧ ∀ e ∈ es, e.node ≠ n

theorem Apart.refl {n : N} : Apart n σ σ := ⟨[], by simp, by simp⟩

theorem Apart.trans {n : N} {σ'' : Server N T K S} (h : Apart n σ σ') (h' : Apart n σ' σ'') : Apart n σ σ'' := by
  obtain ⟨a, h1, h2⟩ := h
  obtain ⟨b, h3, h4⟩ := h'
  refine ⟨a ++ b, by rw [h3, h1, List.append_assoc], ?_⟩
  intro e he
  rcases List.mem_append.1 he with he | he
  · exact h2 e he
  · exact h4 e he

theorem Apart.frame {n : N} {σ'' : Server N T K S} (h : Apart n σ σ') (hf : Frame σ' σ'') : Apart n σ σ'' :=
  h.trans ⟨[], by rw [hf.evs, List.append_nil], by simp⟩

/-- A held block is neither skipped nor handed out. -/
theorem acquire_apart {tr : List (Ev N)} {skips : List N} {r : Option N} {n : N}
    (hl : Legal g (tr ++ acquireEvents skips r)) (hn : Held tr n) : ∀ e ∈ acquireEvents skips r, e.node ≠ n := by
  intro e he
  unfold acquireEvents at he hl
  rcases List.mem_append.1 he with he | he
  · obtain ⟨x, hx, rfl⟩ := List.mem_map.1 he
    rintro rfl
    obtain ⟨a, b, rfl⟩ := List.append_of_mem hx
    have := hl (tr ++ a.map .skip) (.skip x) (b.map .skip ++ (r.map Ev.hand).toList) (by simp)
    exact this.2.2.2.2 ((held_skips a).2 hn)
  · cases r with
    | none => cases he
    | some m =>
      cases List.mem_singleton.1 (show e ∈ [Ev.hand m] from he)
      rintro rfl
      have := hl (tr ++ skips.map .skip) (.hand m) [] (by simp)
      exact this.2.2.2.2 ((held_skips skips).2 hn)

theorem SInv.held_over (h : SInv g (over ph σ)) {m : N} (hm : ph.get (g.key m) ≠ none)
    (hmem : m ∈ g.nodes) : Held (evs σ.out) m := by
  cases hl : ph.get (g.key m) with
  | none => exact absurd hl hm
  | some l => exact (h.held m).2 (by
      change holder σ.out m ≠ none
      rw [h.phantom hmem hl]; simp)

theorem SInv.apart_acquire (hg : g.Loose) (h : SInv g (over ph σ)) {m : N} (hm : ph.get (g.key m) ≠ none) (hmem : m ∈ g.nodes)
    {chk : Nat → N → Check} {t : T} {skips : List N} {r : Option N} {st' : Sched N T K}
    (ha : σ.sched.acquireBlock g chk t = .ok (skips, r, st')) (ho : evs σ'.out = evs σ.out ++ acquireEvents skips r) :
    Apart m σ σ' :=
  ⟨_, ho, acquire_apart (loose_legal hg (Run.acquire chk t h.run ha)) (h.held_over hm hmem)⟩

theorem SInv.check (h : SInv g (over ph σ)) : Chain g (over ph σ) (over ph (σ.checkAll g)) := by
  rw [← checkAll_over]
  exact Chain.one h.toSCore Micro.check (h.toSCore.frame (checkAll_frame _))

theorem safeRelease_keeps (hg : g.Loose) (h : SInv g (over ph σ)) {pick : Nat → Finset N → N} (hp : LegalPick pick) {n : N}
    (hn : n ∈ g.nodes) {status : BlockStatus} (hs : status = .success ∨ status = .failed) {s : S} :
    ∃ σ', σ.safeRelease g pick n status s = .ok σ' ∧ SInv g (over ph σ') ∧ Chain g (over ph σ) (over ph σ') ∧
      ∀ n, n ∈ g.nodes → ph.get (g.key n) ≠ none → Apart n σ σ' := by
  cases hl : ph.get (g.key n) with
  | some l => exact ⟨σ, safeRelease_phantom h (by rw [hl]; simp), h, Relation.ReflTransGen.refl, fun _ _ _ => Apart.refl⟩
  | none =>
    obtain ⟨τ, h1, h2, _, h3⟩ := safeRelease_spec hg h hn (s := s) hs hp
    have hc := safeRelease_chain hg h hn hs hp h1
    rw [safeRelease_over hl] at h1
    cases hr : σ.safeRelease g pick n status s with
    | error e => rw [hr] at h1; cases h1
    | ok σ1 =>
      rw [hr] at h1
      cases h1
      refine ⟨σ1, rfl, h2, hc, ?_⟩
      intro m hmm hm
      have hmn : n ≠ m := by rintro rfl; exact hm hl
      split at h3
      · obtain ⟨os, h3, h4⟩ := h3
        refine ⟨evs [(.release n status : Out N T S)], ?_, ?_⟩
        · change evs (over ph σ1).out = evs (over ph σ).out ++ _
          rw [h3]
          have : (over ph σ).out ++ .release n status :: os = ((over ph σ).out ++ [.release n status]) ++ os := by simp
          rw [this, evs_append, evs_append, evs_silent h4, List.append_nil]
        · intro e he
          rcases hs with rfl | rfl
          · cases List.mem_singleton.1 (show e ∈ [Ev.good n] from he); exact hmn
          · cases List.mem_singleton.1 (show e ∈ [Ev.bad n] from he); exact hmn
      · exact ⟨[], by
          change evs (over ph σ1).out = evs (over ph σ).out ++ _
          rw [h3, List.append_nil], by simp⟩

theorem handle_keeps (hg : g.Loose) (h : SInv g (over ph σ)) {m : Msg N T} (hm : GoodMsg g cfg m) (s : S)
    (chk : Nat → N → Check) {pick : Nat → Finset N → N} (hp : LegalPick pick) (now : Int) :
    ∃ σ', σ.handle g cfg chk pick now m s = .ok σ' ∧ SInv g (over ph σ') ∧ Chain g (over ph σ) (over ph σ') ∧
      ∀ n, n ∈ g.nodes → ph.get (g.key n) ≠ none → Apart n σ σ' := by
  cases m with
  | acquire t =>
    obtain ⟨τ, skips, r, h1, h2, h4, h5⟩ := handleAcquire_spec (cfg := cfg) hg h chk now s hm
    obtain ⟨σ1, h3, rfl⟩ := handleAcquire_over h1
    have hc := handleAcquire_chain (cfg := cfg) hg h hm h1
    refine ⟨σ1.checkAll g, by simp only [Server.handle, h3], h2.frame_over (checkAll_frame σ1), hc.trans (h2.check),
      fun m hmm hm => Apart.frame (?_ : Apart m σ σ1) (checkAll_frame σ1)⟩
    refine h.apart_acquire hg hm hmm h4 ?_
    change evs (over ph σ1).out = evs (over ph σ).out ++ _
    cases r with
    | some n => rw [h5.1, evs_append, evs_append, evs_skips, List.append_assoc]; rfl
    | none =>
      obtain ⟨_, h5⟩ := h5
      have hz : acquireEvents skips none = skips.map .skip := by simp [acquireEvents]
      rw [hz]
      split at h5
      · rw [h5.2, (recruit_frame _).evs, evs_append, evs_append, evs_skips]
        exact List.append_nil _
      · rw [h5.2.1, evs_append, evs_skips]
  | release n status =>
    obtain ⟨σ1, h1, h2, hc, ha⟩ := safeRelease_keeps hg h hp hm.1 hm.2 (s := s)
    exact ⟨σ1.checkAll g, by simp only [Server.handle, h1], h2.frame_over (checkAll_frame σ1), hc.trans (h2.check),
      fun m hmm hm => (ha m hmm hm).frame (checkAll_frame σ1)⟩
  | blockFailed n w =>
    obtain ⟨σ1, h1, h2, hc, ha⟩ := safeRelease_keeps hg h hp (n := n) hm (status := .failed) (Or.inr rfl) (s := s)
    have hf : Frame σ1 (σ1.emit [.blockFailure n w]) := ⟨rfl, rfl, rfl, [.blockFailure n w], rfl, by simp [Silent]⟩
    have h3 := h2.frame_over hf
    exact ⟨(σ1.emit [.blockFailure n w]).checkAll g, by simp only [Server.handle, h1],
      h2.frame_over (hf.trans (checkAll_frame _)),
      (hc.trans (Chain.one h2.toSCore (Micro.fail n w) h3.toSCore)).trans h3.check,
      fun m hmm hm => (ha m hmm hm).frame (hf.trans (checkAll_frame _))⟩
  | clientException => exact absurd hm id
  | other => exact absurd hm id

theorem handleMessages_keeps (hg : g.Loose) (h : SInv g (over ph σ)) (r : Server.Recv N T S)
    (hr : ∀ m s, r = .msg m s → GoodMsg g cfg m)
    (chk : Nat → N → Check) {pick : Nat → Finset N → N} (hp : LegalPick pick) (now : Int) :
    ∃ σ', σ.handleMessages g cfg chk pick now r = .ok σ' ∧ SInv g (over ph σ') ∧ Chain g (over ph σ) (over ph σ') ∧
      ∀ n, n ∈ g.nodes → ph.get (g.key n) ≠ none → Apart n σ σ' := by
  cases r with
  | msg m s => exact handle_keeps hg h (hr m s rfl) s chk hp now
  | closed => exact ⟨σ, rfl, h, Relation.ReflTransGen.refl, fun _ _ _ => Apart.refl⟩
  | nothing =>
    unfold Server.handleMessages
    simp only
    split
    · exact ⟨σ, rfl, h, Relation.ReflTransGen.refl, fun _ _ _ => Apart.refl⟩
    · rename_i t ht
      split
      · exact ⟨σ, rfl, h, Relation.ReflTransGen.refl, fun _ _ _ => Apart.refl⟩
      · rename_i s rest _
        have h1 := h.pending (upd σ.pending t rest)
        obtain ⟨σ', h2, h3, h4, h5⟩ := handle_keeps (cfg := cfg) (σ := { σ with pending := upd σ.pending t rest }) hg h1
          (m := .acquire t) (List.mem_of_find?_eq_some ht) s chk hp now
        exact ⟨σ', h2, h3, (Chain.one h.toSCore (Micro.pop _) h1.toSCore).trans h4, h5⟩

theorem checkLost_keeps (hg : g.Loose) (h : SInv g (over ph σ)) {pick : N → Nat → Finset N → N}
    (hp : ∀ n, LegalPick (pick n)) (closed : S → Bool) (clock : Nat → Int) :
    ∃ σ', σ.checkLost g pick closed clock = .ok σ' ∧ SInv g (over ph σ') ∧ Chain g (over ph σ) (over ph σ') ∧
      ∀ n, n ∈ g.nodes → ph.get (g.key n) ≠ none → Apart n σ σ' := by
  have hnd := h.nodup
  change ((ph ++ σ.book).map (·.1)).Nodup at hnd
  rw [List.map_append, List.nodup_append] at hnd
  obtain ⟨_, n2, n3⟩ := hnd
  unfold Server.checkLost
  rw [Book.getLost_none closed clock n2]
  simp only
  obtain ⟨p, hpd⟩ : ∃ p : K × BlockLog N S → Bool,
    p = fun e => decide (e.1 ∉ ph.map (·.1)) && closed e.2.stream := ⟨_, rfl⟩
  have hph : ∀ e ∈ ph, p e = false := by
    intro e he
    rw [hpd]
    simp only [Bool.and_eq_false_iff, decide_eq_false_iff_not, not_not]
    exact Or.inl (List.mem_map.2 ⟨e, he, rfl⟩)
  have hbk : ∀ e ∈ σ.book, p e = closed e.2.stream := by
    intro e he
    rw [hpd]
    have : e.1 ∉ ph.map (·.1) := fun hc => n3 _ hc _ (List.mem_map.2 ⟨e, he, rfl⟩) rfl
    simp only [this, not_false_eq_true, decide_true, Bool.true_and]
  have h1 := h.lost hg p
  have e1 : (over ph σ).book.filter p = σ.book.filter (fun e => closed e.2.stream) := by
    change (ph ++ σ.book).filter p = _
    rw [List.filter_append, List.filter_eq_nil_iff.2 (fun e he => by rw [hph e he]; simp), List.nil_append]
    exact List.filter_congr hbk
  have e2 : (over ph σ).book.filter (fun e => ! p e) = ph ++ σ.book.filter (fun e => ! closed e.2.stream) := by
    change (ph ++ σ.book).filter _ = _
    rw [List.filter_append, List.filter_eq_self.2 (fun e he => by rw [hph e he]; rfl)]
    congr 1
    exact List.filter_congr (fun e he => by rw [hbk e he])
  rw [e1, e2] at h1
  obtain ⟨τ, os, r1, r2, _, _, r5, _, r7, _⟩ := releaseLost_ok hg hp _ _ h1
  have hc := (Chain.one h.toSCore (Micro.book _) h1.toSCore).trans
    (releaseLost_chain hg hp _ _ _ h1.toSCore h1.lnodup (fun n hn => (h1.lost n hn).2) r1)
  have e3 : ({ over ph σ with book := ph ++ σ.book.filter (fun e => ! closed e.2.stream) } : Server N T K S) =
    over ph { σ with book := σ.book.filter (fun e => ! closed e.2.stream) } := rfl
  rw [e3, releaseLost_over] at r1
  cases hr : Server.releaseLost g pick ((σ.book.filter (fun e => closed e.2.stream)).map (·.2.block))
      { σ with book := σ.book.filter (fun e => ! closed e.2.stream) } with
  | error e => rw [hr] at r1; cases r1
  | ok σ1 =>
    rw [hr] at r1
    cases r1
    refine ⟨σ1, rfl, r2, hc, ?_⟩
    intro m hmm hm
    refine ⟨evs os, ?_, ?_⟩
    · change evs (over ph σ1).out = evs (over ph σ).out ++ _
      rw [r5, evs_append]
    · intro e he
      rw [r7] at he
      obtain ⟨x, hx, rfl⟩ := List.mem_map.1 he
      rintro rfl
      have h5 := (h1.lost x hx).1
      change Book.get (ph ++ _) (g.key x) = none at h5
      cases hl : ph.get (g.key x) with
      | none => exact hm hl
      | some l => rw [get_over_some hl] at h5; cases h5

theorem iteration_keeps (hg : g.Loose) (h : SInv g (over ph σ)) {k : Server.Tick N T S} (hk : GoodTick g cfg k) :
    ∃ σ', σ.iteration g cfg k = .ok σ' ∧ SInv g (over ph σ') ∧ Chain g (over ph σ) (over ph σ') ∧
      ∀ n, n ∈ g.nodes → ph.get (g.key n) ≠ none → Apart n σ σ' := by
  obtain ⟨σ1, h1, h2, c1, a1⟩ := handleMessages_keeps hg h k.recv hk.1 k.chk hk.2.1 k.now
  obtain ⟨σ2, h3, h4, c2, a2⟩ := checkLost_keeps hg h2 hk.2.2 k.closed k.clock
  unfold Server.iteration
  rw [h1]
  simp only
  rw [h3]
  refine ⟨_, rfl, ?_⟩
  split
  · exact ⟨h4.frame_over (checkAll_frame σ2), (c1.trans c2).trans h4.check,
      fun m hmm hm => ((a1 m hmm hm).trans (a2 m hmm hm)).frame (checkAll_frame σ2)⟩
  · exact ⟨h4, c1.trans c2, fun m hmm hm => (a1 m hmm hm).trans (a2 m hmm hm)⟩

/-- With the entries of the old book added, a resumed run begins in a good state. -/
theorem SInv.resume (h : SInv g σ) : SInv g (over σ.book (σ.resume g)) := by
  have h0 : SInv g (over σ.book (⟨σ.sched, [], [], [], false, false, fun _ => [], σ.out⟩ : Server N T K S)) := by
    refine ⟨⟨h.run, h.held⟩, ?_, ?_, ?_⟩
    · change ((σ.book ++ ([] : Book N K S)).map (·.1)).Nodup
      rw [List.append_nil]; exact h.nodup
    · intro e he
      change e ∈ σ.book ++ [] at he
      rw [List.append_nil] at he
      exact h.entry e he
    · change ∀ n ∈ g.nodes, (Book.get (σ.book ++ []) (g.key n)).map _ = holder σ.out n
      rw [List.append_nil]; exact h.book
  exact h0.frame_over (recruit_frame _)

theorem SInv.book_nil (h : SInv g σ) (hn : ∀ n, holder σ.out n = none) : σ.book = [] := by
  refine List.eq_nil_iff_forall_not_mem.2 (fun e he => ?_)
  obtain ⟨h1, h2⟩ := h.entry e he
  have := h.book _ h1
  rw [hn, ← h2, Book.get_of_mem (k := e.1) (l := e.2) h.nodup he] at this
  cases this

theorem SInv.resume_free (h : SInv g σ) (hn : ∀ n, holder σ.out n = none) : SInv g (σ.resume g) := by
  have := h.resume
  rw [h.book_nil hn] at this
  exact this

/-- What holds in every series of runs that begins with `σ₀`: with the entries of the books of earlier runs added, the
state is as in a single run. -/
theorem SSeries.keeps {σ₀ : Server N T K S} (hg : g.Loose) (h : SSeries g cfg σ₀ σ) :
    ∀ ph₀ : Book N K S, SInv g (over ph₀ σ₀) → StopOK g σ₀ → ∃ ph, SInv g (over (ph₀ ++ ph) σ) ∧ StopOK g σ ∧
      ∀ n ∈ g.nodes, ph₀.get (g.key n) ≠ none → Apart n σ₀ σ := by
  intro ph₀ h0 hs0
  induction h with
  | nil => exact ⟨[], by rw [List.append_nil]; exact h0, hs0, fun _ _ _ => Apart.refl⟩
  | @step σ σ' k _ _ hk he ih =>
    obtain ⟨ph, h1, h2, h3⟩ := ih
    obtain ⟨σ1, e1, e2, e3, e4⟩ := iteration_keeps hg h1 hk
    rw [e1] at he
    cases he
    refine ⟨ph, e2, ?_, ?_⟩
    · have h2' : StopOK g (over (ph₀ ++ ph) σ) := ⟨h2.stop, h2.finished⟩
      have := e3.induct (P := StopOK g) (fun a b _ hcb hm ih => ih.micro hg hcb hm) h2'
      exact ⟨this.stop, this.finished⟩
    · intro n hn hp
      refine (h3 n hn hp).trans (e4 n hn ?_)
      cases hl : ph₀.get (g.key n) with
      | none => exact absurd hl hp
      | some l => rw [get_over_some hl]; simp
  | @again σ _ ih =>
    obtain ⟨ph, h1, h2, h3⟩ := ih
    refine ⟨ph ++ σ.book, ?_, ?_, ?_⟩
    · have := h1.resume
      change SInv g (over ((ph₀ ++ ph) ++ σ.book) (σ.resume g)) at this
      rw [← List.append_assoc]
      exact this
    · refine StopOK.recruit ⟨?_, ?_⟩
      · intro h; cases h
      · intro t h; cases h
    · intro n hn hp
      refine (h3 n hn hp).trans ⟨[], ?_, by simp⟩
      rw [List.append_nil]
      exact (recruit_frame _).evs

end Verif
