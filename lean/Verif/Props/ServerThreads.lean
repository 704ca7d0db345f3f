import Verif.Proofs.ServerThreads
import Verif.Props.Strangers

/-! # C117: what the IO loop can do between the statements of the server -/

set_option linter.unusedSectionVars false

namespace Verif

open Spec FineSrv

variable {N T K S : Type} [DecidableEq N] [DecidableEq T] [DecidableEq K] [DecidableEq S]
  {g : DGraph N T K} {cfg : SConf T} {ks : List (FineTick N T S)} {x x' : FineSrv N T K S} {k : FineTick N T S}

/-- Clients send what they should, and their messages can be read. -/
def Spec.Decent (g : DGraph N T K) (cfg : SConf T) (k : FineTick N T S) : Prop :=
  (∀ m s, Does k (.arrive m s) → GoodMsg g cfg m) ∧ ∀ s e, ¬ Does k (.bad s e)

/-- No client gets a second block in this iteration. -/
def Spec.Single (g : DGraph N T K) (cfg : SConf T) (x : FineSrv N T K S) (k : FineTick N T S) : Prop :=
  ∀ r σ, Gets x k r → x.srv.handleMessages g cfg k.chk k.pick k.now r = .ok σ → OneEach σ.out

theorem gets_queue {m : Msg N T} {s : S} (h : Gets x k (.msg m s)) :
    (m, s) ∈ x.queue ∨ Does k (.arrive m s) := by
  have h1 := List.mem_of_mem_head? h.2
  obtain ⟨q, h2, h3⟩ := ioRun_queue (k.io0 ++ k.io1) x
  rw [h2] at h1
  rcases List.mem_append.1 h1 with h1 | h1
  · exact Or.inl h1
  · rcases List.mem_append.1 (h3 _ h1) with h | h
    · exact Or.inr (Or.inl h)
    · exact Or.inr (Or.inr (Or.inl h))

theorem gets_some (x : FineSrv N T K S) (k : FineTick N T S) :
    (∃ e r, (x.ioRun k.io0).excs = .other e :: r) ∨ ∃ r, Gets x k r := by
  by_cases h : ∃ e r, (x.ioRun k.io0).excs = .other e :: r
  · exact Or.inl h
  · obtain ⟨r, _, _, h2, _⟩ := (getMessage_spec x k).2 h
    exact Or.inr ⟨r, h2⟩

/-- What an iteration that does not raise has done. -/
theorem fine_ok (hg : g.Loose) (hserved : ∀ n ∈ g.nodes, g.task n ∈ cfg.served) (hi : SInv g x.srv)
    (hq : ∀ p ∈ x.queue, Genuine g p.1) (hk : FineLegal g k) (he : x.iteration g cfg k = .ok x') :
    ∃ (r : Server.Recv N T S) (σ : Server N T K S) (p : K → Bool) (σ' : Server N T K S), Gets x k r ∧
        x.srv.handleMessages g cfg k.chk k.pick k.now r = .ok σ ∧ ¬ Fatal x.srv.out r ∧ SInv g σ ∧ ¬ Caught x k σ.book ∧
        (∀ n s, holder x.srv.out n = some s → (∀ m s', r = .msg m s' → s ≠ s') → holder σ.out n = some s) ∧
        x'.srv = (if k.late then σ'.checkAll g else σ') ∧
        Server.releaseLost g k.pickLost ((σ.book.filter (fun e => p e.1)).map (·.2.block))
          { σ with book := σ.book.filter (fun e => ! p e.1) } = .ok σ' ∧ SInv g x'.srv ∧
        (∀ n s, holder σ.out n = some s → holder x'.srv.out n = if p (g.key n) then none else some s) ∧
        (∀ n, holder σ.out n = none → holder x'.srv.out n = none) ∧
        x'.links = (x.ioRun (ioBefore k σ.book.length)).links ∧
        (∀ e ∈ σ.book, (p e.1 = true → Shut (x'.links e.2.stream)) ∧
          (Shut ((x.ioRun (k.io0 ++ k.io1)).links e.2.stream) → p e.1 = true)) ∧
        (∀ q ∈ x'.queue, q ∈ x.queue ∨ Does k (.arrive q.1 q.2)) ∧
        ∀ e ∈ x'.excs, e ∈ (x.ioRun (ioBefore k σ.book.length)).excs := by
  obtain ⟨f1, f2, f3, f4⟩ := fine_cases (g := g) (cfg := cfg) x k
  rcases gets_some x k with ⟨e, r, h⟩ | ⟨r, hr⟩
  · rw [f1 e r h] at he
    cases he
  · have hgen : ∀ m s, r = .msg m s → Genuine g m := by
      rintro m s rfl
      rcases gets_queue hr with h | h
      · exact hq _ h
      · exact hk.1 m s h
    obtain ⟨m1, m2⟩ := handleMessages_any (cfg := cfg) hg hserved hi hgen k.chk hk.2.1 k.now
    by_cases hf : Fatal x.srv.out r
    · obtain ⟨e, h1, _⟩ := m1 hf
      rw [f2 r e hr h1] at he
      cases he
    · obtain ⟨σ, h1, h2, h3⟩ := m2 hf
      by_cases hc : Caught x k σ.book
      · rw [f3 r σ hr h1 h2.nodup hc] at he
        cases he
      · obtain ⟨p, σ', x1, a1, a2, a3, a4, a5, a6, a7, a8, a9, a10⟩ := f4 r σ hr h1 hg h2 hk.2.2 hc
        rw [he] at a1
        cases a1
        refine ⟨r, σ, p, σ', hr, h1, hf, h2, hc, h3, a2, a3, ?_, ?_, ?_, a7, a8, ?_, a10⟩
        · rw [a2]
          split
          · exact a4.frame (checkAll_frame σ')
          · exact a4
        · intro n s hn
          rw [a2]
          split
          · rw [(checkAll_frame σ').holder]; exact a5 n s hn
          · exact a5 n s hn
        · intro n hn
          rw [a2]
          split
          · rw [(checkAll_frame σ').holder]; exact a6 n hn
          · exact a6 n hn
        · intro q hq'
          rcases a9 q hq' with h | ⟨i, h⟩
          · obtain ⟨q', h4, h5⟩ := ioRun_queue (k.io0 ++ k.io1) x
            rw [h4] at h
            rcases List.mem_append.1 h with h | h
            · exact Or.inl h
            · rcases List.mem_append.1 (h5 _ h) with h | h
              · exact Or.inr (Or.inl h)
              · exact Or.inr (Or.inr (Or.inl h))
          · exact Or.inr (Or.inr (Or.inr ⟨i, h⟩))

theorem Spec.FineRun.inv (hg : g.Loose) (hserved : ∀ n ∈ g.nodes, g.task n ∈ cfg.served) (h : FineRun g cfg ks x) :
    SInv g x.srv ∧ ∀ p ∈ x.queue, Genuine g p.1 := by
  induction h with
  | init => exact ⟨SInv.init, by intro p hp; cases hp⟩
  | step k h hs hk he ih =>
    obtain ⟨r, σ, p, σ', _, _, _, _, _, _, _, _, h1, _, _, _, _, h2, _⟩ := fine_ok hg hserved ih.1 ih.2 hk he
    refine ⟨h1, ?_⟩
    intro q hq
    rcases h2 q hq with h | h
    · exact ih.2 q h
    · exact hk.1 _ _ h

theorem queue_of {Q : Msg N T → Prop} (hg : g.Loose) (hserved : ∀ n ∈ g.nodes, g.task n ∈ cfg.served)
    (h : FineRun g cfg ks x) (hQ : ∀ k ∈ ks, ∀ m s, Does k (.arrive m s) → Q m) : ∀ p ∈ x.queue, Q p.1 := by
  induction h with
  | init => intro p hp; cases hp
  | step k h hs hk he ih =>
    obtain ⟨i1, i2⟩ := h.inv hg hserved
    obtain ⟨r, σ, p, σ', _, _, _, _, _, _, _, _, _, _, _, _, _, h2, _⟩ := fine_ok hg hserved i1 i2 hk he
    intro q hq
    rcases h2 q hq with h | h
    · exact ih (fun k' hk' => hQ k' (List.mem_append_left _ hk')) q h
    · exact hQ k (by simp) _ _ h

theorem good_genuine (hg : g.Loose) {m : Msg N T} (h : GoodMsg g cfg m) : Genuine g m := by
  cases m with
  | release n status => exact fun n' hn' hk => hg.key_inj n h.1 n' hn' hk
  | blockFailed n w => exact fun n' hn' hk => hg.key_inj n h n' hn' hk
  | _ => trivial

theorem good_not_fatal {out : List (Out N T S)} {m : Msg N T} {s : S} (h : GoodMsg g cfg m) :
    ¬ Fatal out (.msg m s) := by
  intro hf
  cases m with
  | acquire t => exact hf
  | release n status => exact h.2.elim hf.2.1 hf.2.2
  | blockFailed n w => exact hf
  | clientException => exact h
  | other => exact h

/-- **C117, full statement.**  Whatever happens to connections, and whatever the IO loop does between any two statements of
the event loop: if clients send what they should, nothing is raised. -/
def C117_statement : Prop :=
  ∀ (N T K S : Type) [DecidableEq N] [DecidableEq T] [DecidableEq K] [DecidableEq S] (g : DGraph N T K) (cfg : SConf T),
    g.OK → (∀ n ∈ g.nodes, g.task n ∈ cfg.served) →
    ∀ (ks : List (FineTick N T S)) (x : FineSrv N T K S) (k : FineTick N T S),
      FineRun g cfg ks x → FineLegal g k → (∀ k' ∈ ks ++ [k], Decent g cfg k') → ∃ x', x.iteration g cfg k = .ok x'

/-- C117: exactly when an iteration raises: if `handle_stream` has put something else than `StreamClosedError` into the
queue, if the message is one that stops the server (`Fatal`, C116), or if the stream of a block that is out is set to
`None` while the server looks whether it is closed. -/
theorem C117_raises_iff (hg : g.Loose) (hserved : ∀ n ∈ g.nodes, g.task n ∈ cfg.served) (h : FineRun g cfg ks x)
    (hk : FineLegal g k) :
    (∃ e, x.iteration g cfg k = .error e) ↔
      (∃ e r, (x.ioRun k.io0).excs = .other e :: r) ∨ (∃ r, Gets x k r ∧ Fatal x.srv.out r) ∨
      ∃ r σ, Gets x k r ∧ x.srv.handleMessages g cfg k.chk k.pick k.now r = .ok σ ∧ Caught x k σ.book := by
  obtain ⟨hi, hq⟩ := h.inv hg hserved
  obtain ⟨f1, f2, f3, f4⟩ := fine_cases (g := g) (cfg := cfg) x k
  have hgen : ∀ r, Gets x k r → ∀ m s, r = .msg m s → Genuine g m := by
    rintro r hr m s rfl
    rcases gets_queue hr with h | h
    · exact hq _ h
    · exact hk.1 m s h
  constructor
  · rintro ⟨e, he⟩
    rcases gets_some x k with h | ⟨r, hr⟩
    · exact Or.inl h
    · obtain ⟨m1, m2⟩ := handleMessages_any (cfg := cfg) hg hserved hi (hgen r hr) k.chk hk.2.1 k.now
      by_cases hf : Fatal x.srv.out r
      · exact Or.inr (Or.inl ⟨r, hr, hf⟩)
      · obtain ⟨σ, h1, h2, _⟩ := m2 hf
        by_cases hc : Caught x k σ.book
        · exact Or.inr (Or.inr ⟨r, σ, hr, h1, hc⟩)
        · obtain ⟨p, σ', x1, a1, _⟩ := f4 r σ hr h1 hg h2 hk.2.2 hc
          rw [he] at a1
          cases a1
  · rintro (⟨e, r, h⟩ | ⟨r, hr, hf⟩ | ⟨r, σ, hr, h1, hc⟩)
    · exact ⟨e, f1 e r h⟩
    · obtain ⟨m1, m2⟩ := handleMessages_any (cfg := cfg) hg hserved hi (hgen r hr) k.chk hk.2.1 k.now
      obtain ⟨e, h1, _⟩ := m1 hf
      exact ⟨e, f2 r e hr h1⟩
    · obtain ⟨m1, m2⟩ := handleMessages_any (cfg := cfg) hg hserved hi (hgen r hr) k.chk hk.2.1 k.now
      by_cases hf : Fatal x.srv.out r
      · obtain ⟨e, h2, _⟩ := m1 hf
        rw [h1] at h2
        cases h2
      · obtain ⟨σ1, h2, h3, _⟩ := m2 hf
        rw [h1] at h2
        cases h2
        exact ⟨_, f3 r σ hr h1 h3.nodup hc⟩

/-- Exceptions that are on their way are `StreamClosedError`s. -/
def OnlyClosed (x : FineSrv N T K S) : Prop :=
  (∀ e ∈ x.excs, e = .closed) ∧ ∀ s e, (x.links s).pc = .raising e → e = .closed

theorem OnlyClosed.step (h : OnlyClosed x) {e : SrvIo N T S} (h1 : ∀ s e', e ≠ .bad s e') (h2 : ∀ s, e ≠ .half s) :
    OnlyClosed (x.ioStep e) := by
  have hl : ∀ l : Link, (∀ e, l.pc = .raising e → e = .closed) → ∀ e', (linkStep l e).pc = .raising e' → e' = .closed := by
    intro l hl e' he
    cases e with
    | arrive m s => exact hl e' he
    | dies s => exact hl e' he
    | lost s =>
      simp only [linkStep] at he
      split at he
      · cases he; rfl
      · exact hl e' he
    | half s => exact absurd rfl (h2 s)
    | bad s e => exact absurd rfl (h1 s e)
    | bye s =>
      simp only [linkStep] at he
      split at he
      · split at he
        · cases he
        · cases he; rfl
      · exact hl e' he
    | writeFails s =>
      simp only [linkStep] at he
      split at he
      · exact hl e' he
      · exact hl e' he
    | put s =>
      simp only [linkStep] at he
      split at he
      · cases he
      · exact hl e' he
  constructor
  · intro e' he'
    rw [(ioStep_add x e).2] at he'
    rcases List.mem_append.1 he' with he' | he'
    · exact h.1 e' he'
    · cases e with
      | put s =>
        simp only [addExcs, streamOf] at he'
        split at he'
        · rename_i e1 hp
          rw [List.mem_singleton] at he'
          rw [he']
          exact h.2 s e1 hp
        · cases he'
      | _ => cases he'
  · intro s e' he'
    rw [ioStep_links] at he'
    unfold upd at he'
    split at he'
    · exact hl _ (h.2 _) e' he'
    · exact h.2 s e' he'

theorem OnlyClosed.run (es : List (SrvIo N T S)) {x : FineSrv N T K S} (h : OnlyClosed x)
    (h1 : ∀ s e', .bad s e' ∉ es) (h2 : ∀ s, .half s ∉ es) : OnlyClosed (x.ioRun es) := by
  induction es generalizing x with
  | nil => exact h
  | cons e es ih =>
    refine ih (x := x.ioStep e) (h.step ?_ ?_) (fun s e' hm => h1 s e' (List.mem_cons_of_mem _ hm))
      (fun s hm => h2 s (List.mem_cons_of_mem _ hm))
    · intro s e' he; exact h1 s e' (he ▸ List.mem_cons_self)
    · intro s he; exact h2 s (he ▸ List.mem_cons_self)

theorem not_mem_before {e : SrvIo N T S} (h : ¬ Does k e) (i : Nat) : e ∉ ioBefore k i := by
  intro hm
  unfold ioBefore at hm
  rcases List.mem_append.1 hm with hm | hm
  · rcases List.mem_append.1 hm with hm | hm
    · exact h (Or.inl hm)
    · exact h (Or.inr (Or.inl hm))
  · obtain ⟨j, _, hj⟩ := List.mem_flatMap.1 hm
    exact h (Or.inr (Or.inr ⟨j, hj⟩))

/-- C117: if clients send what they should, and no stream is lost exactly between the two parts of a message, then the
only thing that can be raised is `AttributeError`, and that happens exactly if the stream of a block that is out is set to
`None` while the server looks whether it is closed. -/
theorem C117_partial (hg : g.Loose) (hserved : ∀ n ∈ g.nodes, g.task n ∈ cfg.served) (h : FineRun g cfg ks x)
    (hk : FineLegal g k) (hd : ∀ k' ∈ ks ++ [k], Decent g cfg k') (hh : ∀ k' ∈ ks ++ [k], ∀ s, ¬ Does k' (.half s)) :
    ∃ r σ, Gets x k r ∧ x.srv.handleMessages g cfg k.chk k.pick k.now r = .ok σ ∧
      (Caught x k σ.book → x.iteration g cfg k = .error .attributeError) ∧
      (¬ Caught x k σ.book → ∃ x', x.iteration g cfg k = .ok x') := by
  have honly : OnlyClosed x := by
    clear hk
    have hd' : ∀ k' ∈ ks, Decent g cfg k' := fun k' h => hd k' (List.mem_append_left _ h)
    have hh' : ∀ k' ∈ ks, ∀ s, ¬ Does k' (.half s) := fun k' h => hh k' (List.mem_append_left _ h)
    clear hd hh
    induction h with
    | init => exact ⟨(by intro e he; cases he), (by intro s e he; cases he)⟩
    | step k h hs hk he ih =>
      rename_i ks y y'
      have ih := ih (fun k' h => hd' k' (List.mem_append_left _ h)) (fun k' h => hh' k' (List.mem_append_left _ h))
      obtain ⟨i1, i2⟩ := h.inv hg hserved
      obtain ⟨r, σ, p, σ', _, _, _, _, _, _, _, _, _, _, _, a1, _, _, a2⟩ := fine_ok hg hserved i1 i2 hk he
      have hb := OnlyClosed.run (ioBefore k σ.book.length) ih
        (fun s e => not_mem_before ((hd' k (by simp)).2 s e) _) (fun s => not_mem_before (hh' k (by simp) s) _)
      exact ⟨fun e he => hb.1 e (a2 e he), by rw [a1]; exact hb.2⟩
  obtain ⟨hi, hq⟩ := h.inv hg hserved
  have hq' := queue_of (Q := GoodMsg g cfg) hg hserved h
    (fun k' hk' m s hm => (hd k' (List.mem_append_left _ hk')).1 m s hm)
  obtain ⟨f1, f2, f3, f4⟩ := fine_cases (g := g) (cfg := cfg) x k
  rcases gets_some x k with ⟨e, r, he⟩ | ⟨r, hr⟩
  · have := (OnlyClosed.run k.io0 honly (fun s e hm => (hd k (by simp)).2 s e (Or.inl hm))
      (fun s hm => hh k (by simp) s (Or.inl hm))).1 (.other e) (by rw [he]; exact List.mem_cons_self)
    cases this
  · have hgood : ∀ m s, r = .msg m s → GoodMsg g cfg m := by
      rintro m s rfl
      rcases gets_queue hr with h | h
      · exact hq' _ h
      · exact (hd k (by simp)).1 m s h
    obtain ⟨_, m2⟩ := handleMessages_any (cfg := cfg) hg hserved hi (fun m s e => good_genuine hg (hgood m s e)) k.chk hk.2.1
      k.now
    have hf : ¬ Fatal x.srv.out r := by
      cases r with
      | msg m s => exact good_not_fatal (hgood m s rfl)
      | _ => exact id
    obtain ⟨σ, h1, h2, _⟩ := m2 hf
    refine ⟨r, σ, hr, h1, f3 r σ hr h1 h2.nodup, ?_⟩
    intro hc
    obtain ⟨p, σ', x1, a1, _⟩ := f4 r σ hr h1 hg h2 hk.2.2 hc
    exact ⟨x1, a1⟩

/-- C117: in particular nothing is raised if the IO loop does nothing between the two lines of `closed`. -/
theorem C117_calm (h : ∀ i, (k.look i).b = []) (book : Book N K S) : ¬ Caught x k book := by
  rintro ⟨i, key, log, _, h1, h2⟩
  rw [h i, List.append_nil, h1] at h2
  cases h2

theorem order_of_inv (hg : g.Loose) {σ : Server N T K S} (hi : SInv g σ) :
    Run g (evs σ.out) σ.sched ∧ Legal g (evs σ.out) ∧
    (∀ n ∈ g.nodes, ∀ s, (∃ e ∈ σ.book, e.2.block = n ∧ e.2.stream = s) ↔ holder σ.out n = some s) := by
  refine ⟨hi.run, loose_legal hg hi.run, ?_⟩
  intro n hn s
  rw [← hi.book n hn]
  constructor
  · rintro ⟨e, he, rfl, rfl⟩
    rw [← (hi.entry e he).2, Book.get_of_mem (k := e.1) (l := e.2) hi.nodup he]
    rfl
  · intro hb
    obtain ⟨l, h1, h2⟩ := Option.map_eq_some_iff.1 hb
    have h3 := Book.get_mem h1
    exact ⟨_, h3, (hg.key_inj _ (hi.entry _ h3).1 n hn (hi.entry _ h3).2.symm), h2⟩

/-- C117: as long as nothing is raised, the scheduler is used as it is meant to be (so that C15 to C27 apply), and the
server knows who has which block, whatever the IO loop does in between. -/
theorem C117_order (hg : g.Loose) (hserved : ∀ n ∈ g.nodes, g.task n ∈ cfg.served) (h : FineRun g cfg ks x) :
    Run g (evs x.srv.out) x.srv.sched ∧ Legal g (evs x.srv.out) ∧
    (∀ n ∈ g.nodes, ∀ s, (∃ e ∈ x.srv.book, e.2.block = n ∧ e.2.stream = s) ↔ holder x.srv.out n = some s) :=
  order_of_inv hg (h.inv hg hserved).1

theorem fine_lost (hg : g.Loose) (hserved : ∀ n ∈ g.nodes, g.task n ∈ cfg.served) (hi : SInv g x.srv)
    (hq : ∀ p ∈ x.queue, Genuine g p.1)
    (hk : FineLegal g k) (he : x.iteration g cfg k = .ok x') (n : N) (s : S) :
    (holder x.srv.out n = some s → holder x'.srv.out n ≠ some s → (∀ m s', Gets x k (.msg m s') → s ≠ s') →
      Shut (x'.links s)) ∧
    (Shut ((x.ioRun (k.io0 ++ k.io1)).links s) → holder x'.srv.out n ≠ some s) := by
  obtain ⟨r, σ, p, σ', hr, _, _, h2, _, h3, _, _, _, h4, h5, _, h6, _⟩ := fine_ok hg hserved hi hq hk he
  have hentry : holder σ.out n = some s → ∃ l, (g.key n, l) ∈ σ.book ∧ l.stream = s := by
    intro hn
    have hmem : n ∈ g.nodes := h2.toSCore.mem hg (by rw [hn]; exact Option.some_ne_none s)
    have := h2.book n hmem
    rw [hn, Option.map_eq_some_iff] at this
    obtain ⟨l, a, b⟩ := this
    exact ⟨l, Book.get_mem a, b⟩
  constructor
  · intro hn hn' hm
    have h7 := h3 n s hn (fun m s' e => hm m s' (e ▸ hr))
    obtain ⟨l, a, b⟩ := hentry h7
    rcases hp : p (g.key n) with _ | _
    · have := h4 n s h7
      rw [hp] at this
      exact absurd this hn'
    · have := (h6 _ a).1 hp
      rw [← b]
      exact this
  · intro hs hn
    rcases ho : holder σ.out n with _ | s'
    · rw [h5 n ho] at hn
      cases hn
    · have h7 := h4 n s' ho
      rw [hn] at h7
      split at h7
      · cases h7
      · rename_i hp
        cases h7
        obtain ⟨l, a, b⟩ := hentry ho
        exact hp ((h6 _ a).2 (by rw [b]; exact hs))

/-- C117: blocks are taken away only from clients that are gone, or that have sent something; and from a client that was
gone when the server began to look for lost blocks they are taken. -/
theorem C117_lost (hg : g.Loose) (hserved : ∀ n ∈ g.nodes, g.task n ∈ cfg.served) (h : FineRun g cfg ks x)
    (hk : FineLegal g k) (he : x.iteration g cfg k = .ok x') (n : N) (s : S) :
    (holder x.srv.out n = some s → holder x'.srv.out n ≠ some s → (∀ m s', Gets x k (.msg m s') → s ≠ s') →
      Shut (x'.links s)) ∧
    (Shut ((x.ioRun (k.io0 ++ k.io1)).links s) → holder x'.srv.out n ≠ some s) :=
  fine_lost hg hserved (h.inv hg hserved).1 (h.inv hg hserved).2 hk he n s

theorem fine_refines (hg : g.Loose) (hserved : ∀ n ∈ g.nodes, g.task n ∈ cfg.served) (hi : SInv g x.srv)
    (hq : ∀ p ∈ x.queue, Genuine g p.1)
    (hk : FineLegal g k) (he : x.iteration g cfg k = .ok x') (h1 : Single g cfg x k) :
    ∃ (r : Server.Recv N T S) (closed : S → Bool), Gets x k r ∧
      x.srv.iteration g cfg ⟨r, k.chk, k.pick, k.now, closed, fun _ => 0, k.pickLost, k.late⟩ = .ok x'.srv ∧
      ∀ s, (closed s = true → Shut (x'.links s)) ∧ (Shut ((x.ioRun (k.io0 ++ k.io1)).links s) → closed s = true) := by
  obtain ⟨r, σ, p, σ', hr, hm, _, h2, _, h3, h4, h5, _, _, _, h6, h7, _⟩ := fine_ok hg hserved hi hq hk he
  have hone := h1 r σ hr hm
  have hend : ∀ s, Shut ((x.ioRun (k.io0 ++ k.io1)).links s) → Shut (x'.links s) := by
    intro s hs
    rw [h6]
    unfold ioBefore
    rw [ioRun_append]
    exact shut_mono _ hs
  classical
  obtain ⟨closed, hcl⟩ : ∃ closed : S → Bool, ∀ s, closed s = true ↔
      (∃ e ∈ σ.book, e.2.stream = s ∧ p e.1 = true) ∨ Shut ((x.ioRun (k.io0 ++ k.io1)).links s) :=
    ⟨fun s => decide _, fun s => decide_eq_true_iff⟩
  have hentry : ∀ e ∈ σ.book, closed e.2.stream = p e.1 := by
    intro e he
    rcases hp : p e.1 with _ | _
    · rcases hc : closed e.2.stream with _ | _
      · rfl
      · rcases (hcl _).1 hc with ⟨e', he', a, b⟩ | hs
        · have hh : ∀ e ∈ σ.book, holder σ.out e.2.block = some e.2.stream := by
            intro e he
            obtain ⟨a1, a2⟩ := h2.entry e he
            rw [← h2.book _ a1, ← a2, Book.get_of_mem (k := e.1) (l := e.2) h2.nodup he]
            rfl
          have hb := hone _ _ _ (hh e' he') (a ▸ hh e he)
          have : e'.1 = e.1 := by rw [(h2.entry e' he').2, (h2.entry e he).2, hb]
          rw [this, hp] at b
          cases b
        · rw [(h7 e he).2 hs] at hp
          cases hp
    · exact (hcl _).2 (Or.inl ⟨e, he, rfl, hp⟩)
  refine ⟨r, closed, hr, ?_, ?_⟩
  · unfold Server.iteration
    simp only
    rw [hm]
    simp only
    unfold Server.checkLost
    have e1 : σ.book.filter (fun e => closed e.2.stream) = σ.book.filter (fun e => p e.1) := List.filter_congr hentry
    have e2 : σ.book.filter (fun e => ! closed e.2.stream) = σ.book.filter (fun e => ! p e.1) :=
      List.filter_congr (fun e he => by rw [hentry e he])
    rw [Book.getLost_none closed _ h2.nodup, e1, e2]
    simp only
    rw [h5, h4]
  · intro s
    refine ⟨fun hc => ?_, fun hs => (hcl s).2 (Or.inr hs)⟩
    rcases (hcl s).1 hc with ⟨e, he, rfl, hp⟩ | hs
    · exact (h7 e he).1 hp
    · exact hend s hs

/-- C117: if no client has two blocks, the iteration is one of `Model/Server`, in which all streams are looked at at
once: those that were closed before are closed, and those that are open afterwards are open. -/
theorem C117_refines (hg : g.Loose) (hserved : ∀ n ∈ g.nodes, g.task n ∈ cfg.served) (h : FineRun g cfg ks x)
    (hk : FineLegal g k) (he : x.iteration g cfg k = .ok x') (h1 : Single g cfg x k) :
    ∃ (r : Server.Recv N T S) (closed : S → Bool), Gets x k r ∧
      x.srv.iteration g cfg ⟨r, k.chk, k.pick, k.now, closed, fun _ => 0, k.pickLost, k.late⟩ = .ok x'.srv ∧
      ∀ s, (closed s = true → Shut (x'.links s)) ∧ (Shut ((x.ioRun (k.io0 ++ k.io1)).links s) → closed s = true) :=
  fine_refines hg hserved (h.inv hg hserved).1 (h.inv hg hserved).2 hk he h1

/-- C117: so if clients send what they should and no client ever has two blocks, executions with interruptions, as long as
nothing is raised, are executions of `Model/Server`, and everything that is proved about these holds. -/
theorem C117_srun (hg : g.Loose) (hserved : ∀ n ∈ g.nodes, g.task n ∈ cfg.served) (h : FineRun g cfg ks x)
    (hd : ∀ k ∈ ks, ∀ m s, Does k (.arrive m s) → GoodMsg g cfg m)
    (h1 : ∀ ks₁ k ks₂ y, ks = ks₁ ++ k :: ks₂ → FineRun g cfg ks₁ y → Single g cfg y k) :
    ∃ ks', SRun g cfg ks' x.srv := by
  induction h with
  | init => exact ⟨[], .init⟩
  | step k h hs hk he ih =>
    rename_i ks y y'
    obtain ⟨ks', hr⟩ := ih (fun k' hk' => hd k' (List.mem_append_left _ hk'))
      (fun ks₁ k' ks₂ z e hz => h1 ks₁ k' (ks₂ ++ [k]) z (by rw [e]; simp) hz)
    obtain ⟨r, closed, a1, a2, _⟩ := C117_refines hg hserved h hk he (h1 ks k [] y rfl h)
    have hq := queue_of (Q := GoodMsg g cfg) hg hserved h
      (fun k' hk' m s hm => hd k' (List.mem_append_left _ hk') m s hm)
    refine ⟨_, .step _ hr hs ⟨?_, hk.2.1, hk.2.2⟩ a2⟩
    rintro m s rfl
    rcases gets_queue a1 with h | h
    · exact hq _ h
    · exact hd k (by simp) m s h

/-- C117: `get_message` looks as if it had been done at once, if the steps of the IO loop are put into another order that
is the same for every stream. -/
theorem C117_get (io0 io1 : List (SrvIo N T S)) (x : FineSrv N T K S) :
    ∃ pre post, SameSteps (pre ++ post) (io0 ++ io1) ∧
      x.getMessage io0 io1 = (match getNow (x.ioRun pre) with
        | .error e => .error e
        | .ok (r, y) => .ok (r, y.ioRun post)) := by
  unfold getMessage
  simp only
  rcases he : (x.ioRun io0).excs with _ | ⟨_ | e, r⟩
  · rcases hq : (x.ioRun io0).queue with _ | ⟨⟨m, s⟩, q⟩
    · rcases hq1 : ((x.ioRun io0).ioRun io1).queue with _ | ⟨⟨m, s⟩, q⟩
      · refine ⟨io0, io1, fun _ => rfl, ?_⟩
        unfold getNow
        rw [he, hq]
      · obtain ⟨u, v, h1, h2, h3⟩ := first_arrival io1 hq hq1
        have h4 := own_first s u h3 h2
        generalize hu : u.filter (fun e => decide (streamOf e = s)) = us at h4
        generalize hv : u.filter (fun e => ! decide (streamOf e = s)) = ur at h4
        have hus : ∀ e ∈ us, streamOf e = s := by
          intro e h
          rw [← hu] at h
          exact of_decide_eq_true (List.mem_filter.1 h).2
        have h2' := h2
        have h3' := h3
        rw [h4] at h2' h3'
        have h2z := queue_back ur h2'
        have h3z := pc_back ur h3'
        have h5 := own_excs us hus h3z h2z
        refine ⟨io0 ++ (us ++ [.arrive m s]), ur ++ v, ?_, ?_⟩
        · intro s'
          rw [h1]
          have key : (us ++ [SrvIo.arrive m s] ++ ur).filter (fun e => decide (streamOf e = s')) =
              (u ++ [SrvIo.arrive m s]).filter (fun e => decide (streamOf e = s')) := by
            rw [← hu, ← hv]
            simp only [List.filter_append, List.filter_filter]
            by_cases hs : s' = s
            · subst hs
              have e1 : u.filter (fun a => decide (streamOf a = s') && !decide (streamOf a = s')) = [] := by
                rw [List.filter_eq_nil_iff]; intro a _; simp
              rw [e1, List.append_nil]
              simp
            · have e1 : u.filter (fun a => decide (streamOf a = s') && decide (streamOf a = s)) = [] := by
                rw [List.filter_eq_nil_iff]
                intro a _
                simp only [Bool.and_eq_true, decide_eq_true_eq, not_and]
                rintro rfl
                exact hs
              have e2 : [SrvIo.arrive m s].filter (fun e => decide (streamOf e = s')) = [] := by
                rw [List.filter_cons_of_neg]
                · rfl
                · change ¬ decide (s = s') = true
                  rw [decide_eq_true_iff]
                  exact Ne.symm hs
              have e3 : u.filter (fun a => decide (streamOf a = s') && !decide (streamOf a = s)) =
                  u.filter (fun a => decide (streamOf a = s')) := by
                refine List.filter_congr ?_
                intro a _
                by_cases ha : streamOf a = s'
                · simp [ha, hs]
                · simp [ha]
              rw [e1, e2, e3]
              simp
          have e4 : io0 ++ (us ++ [SrvIo.arrive m s]) ++ (ur ++ v) = io0 ++ (us ++ [SrvIo.arrive m s] ++ ur) ++ v := by simp
          have e5 : io0 ++ (u ++ SrvIo.arrive m s :: v) = io0 ++ (u ++ [SrvIo.arrive m s]) ++ v := by simp
          rw [e4, e5, List.filter_append, List.filter_append, key, ← List.filter_append, ← List.filter_append]
        · -- the message arrives, and is taken out at once
          rw [ioRun_append x, ioRun_append (x.ioRun io0) us]
          generalize hz : (x.ioRun io0).ioRun us = z at h2z h3z h5 h4
          have hz1 : z.ioRun [.arrive m s] = { z with queue := [(m, s)] } := by
            change z.ioStep (.arrive m s) = _
            simp only [ioStep, h3z, h2z, if_true, List.nil_append]
          rw [hz1]
          have hn : getNow ({ z with queue := [(m, s)] } : FineSrv N T K S) = .ok (.msg m s, { z with queue := [] }) := by
            have h6 := h5.trans he
            rcases z with ⟨z1, z2, z3, z4⟩
            cases h6
            rfl
          rw [hn]
          simp only
          have hw : ({ z with queue := [] } : FineSrv N T K S) = z := by
            refine ext' rfl ?_ rfl rfl
            exact h2z.symm
          rw [hw, ioRun_append z, ← h4]
          rw [h1, ioRun_append] at hq1 ⊢
          generalize hw' : (x.ioRun io0).ioRun u = w at h3 h2 hq1 ⊢
          have hw1 : w.ioRun (.arrive m s :: v) =
              { w.ioRun v with queue := [(m, s)] ++ (w.ioRun v).queue } := by
            rw [← ioRun_prefix]
            change (w.ioStep (.arrive m s)).ioRun v = _
            congr 1
            simp only [ioStep, h3, h2, if_true, List.nil_append, List.append_nil]
          rw [hw1] at hq1 ⊢
          simp only at hq1
          cases hq1
          rfl
    · refine ⟨io0, io1, fun _ => rfl, ?_⟩
      have hn : getNow (x.ioRun io0) = .ok (.msg m s, { x.ioRun io0 with queue := q }) := by
        generalize x.ioRun io0 = z at he hq
        rcases z with ⟨z1, z2, z3, z4⟩
        cases he
        cases hq
        rfl
      rw [hn]
      simp only
      have h1 : x.ioRun io0 = { ({ x.ioRun io0 with queue := q } : FineSrv N T K S) with
          queue := [(m, s)] ++ ({ x.ioRun io0 with queue := q } : FineSrv N T K S).queue } := ext' rfl hq rfl rfl
      have h2 : (x.ioRun io0).ioRun io1 = { ({ x.ioRun io0 with queue := q } : FineSrv N T K S).ioRun io1 with
          queue := [(m, s)] ++ (({ x.ioRun io0 with queue := q } : FineSrv N T K S).ioRun io1).queue } := by
        conv_lhs => rw [h1]
        rw [ioRun_prefix]
      rw [h2]
      rfl
  · refine ⟨io0, io1, fun _ => rfl, ?_⟩
    unfold getNow
    rw [he]
  · refine ⟨io0, io1, fun _ => rfl, ?_⟩
    unfold getNow
    rw [he]

/-- Run iterations one after the other. -/
def fineExec (g : DGraph N T K) (cfg : SConf T) : List (FineTick N T S) → FineSrv N T K S → Option (FineSrv N T K S)
  | [], x => some x
  | k :: ks, x =>
    if x.srv.stop = false then
      match x.iteration g cfg k with
      | .ok x' => fineExec g cfg ks x'
      | .error _ => none
    else none

theorem fineExec_run {α : Type} (f : FineSrv N T K S → α) {v : α} :
    ∀ (ks ks₀ : List (FineTick N T S)) (x : FineSrv N T K S), (∀ k ∈ ks, FineLegal g k) → FineRun g cfg ks₀ x →
      (fineExec g cfg ks x).map f = some v → ∃ x', FineRun g cfg (ks₀ ++ ks) x' ∧ f x' = v
  | [], ks₀, x, _, h, he => ⟨x, by simpa using h, by simpa [fineExec] using he⟩
  | k :: ks, ks₀, x, hk, h, he => by
    simp only [fineExec] at he
    split at he
    · rename_i hs
      split at he
      · rename_i x1 h1
        have := fineExec_run f ks (ks₀ ++ [k]) x1 (fun k' hk' => hk k' (List.mem_cons_of_mem _ hk'))
          (.step k h hs (hk k List.mem_cons_self) h1) he
        simpa using this
      · cases he
    · cases he

namespace Ex.Between

/-- Two blocks that do not depend on each other and may be tried twice. -/
def graph : DGraph (Fin 2) (Fin 1) (Fin 2) := finGraph 2 1 (fun _ => []) (fun _ => 0) (fun _ => 1) [0]

theorem graph_ok : graph.OK := finGraph_ok (by decide) (by decide) (by decide) (by decide)

def conf : SConf (Fin 1) := ⟨[0], fun _ => none⟩

/-- The IO loop does `io` before the event loop looks for messages, `b` between the two lines of `closed` for the first
block that is out, `c` before tornado is asked, and `d` before the second block is looked at. -/
def ftick (io : List (SrvIo (Fin 2) (Fin 1) Nat)) (b c d : List (SrvIo (Fin 2) (Fin 1) Nat) := []) :
    FineTick (Fin 2) (Fin 1) Nat where
  io0 := []
  io1 := io
  look := fun i => if i = 0 then ⟨[], b, c⟩ else if i = 1 then ⟨d, [], []⟩ else ⟨[], [], []⟩
  chk := fun _ _ => .reject
  pick := pickMin
  now := 0
  pickLost := fun _ => pickMin
  late := false

theorem legal (io b c d : List (SrvIo (Fin 2) (Fin 1) Nat)) : FineLegal graph (ftick io b c d) := by
  refine ⟨?_, pickMin_legal, fun _ => pickMin_legal⟩
  intro m s _
  cases m <;> first | trivial | exact fun n' _ h => h

theorem does {io b c d : List (SrvIo (Fin 2) (Fin 1) Nat)} {e : SrvIo (Fin 2) (Fin 1) Nat}
    (h : Does (ftick io b c d) e) : e ∈ io ++ b ++ c ++ d := by
  simp only [List.mem_append]
  rcases h with h | h | ⟨i, h⟩
  · cases h
  · exact Or.inl (Or.inl (Or.inl h))
  · simp only [ftick] at h
    split at h
    · simp only [Look.all, List.nil_append] at h
      rcases List.mem_append.1 h with h | h
      · exact Or.inl (Or.inl (Or.inr h))
      · exact Or.inl (Or.inr h)
    · split at h
      · simp only [Look.all, List.append_nil] at h
        exact Or.inr h
      · cases h

/-- What the IO loop may do in the examples. -/
def fine : SrvIo (Fin 2) (Fin 1) Nat → Bool
  | .arrive (.acquire _) _ => true
  | .arrive (.release _ .success) _ => true
  | .arrive _ _ => false
  | .bad _ _ => false
  | _ => true

theorem decent {io b c d : List (SrvIo (Fin 2) (Fin 1) Nat)} (h : (io ++ b ++ c ++ d).all fine = true) :
    Decent graph conf (ftick io b c d) := by
  rw [List.all_eq_true] at h
  constructor
  · intro m s hd
    have := h _ (does hd)
    cases m with
    | acquire t => exact (by decide : ∀ t : Fin 1, t ∈ conf.served) t
    | release n st =>
      refine ⟨(by decide : ∀ n : Fin 2, n ∈ graph.nodes) n, ?_⟩
      cases st <;> first | exact Or.inl rfl | cases this
    | _ => cases this
  · intro s e hd
    cases h _ (does hd)

/-- A client gets a block, and its connection is lost while the server looks whether it is closed. -/
def unlucky : FineTick (Fin 2) (Fin 1) Nat := ftick [.arrive (.acquire 0) 7] [.dies 7, .lost 7]

/-- A client gets a block; its connection is lost after that, which is noticed first when something is sent, while
`_get_message` is between the two parts of a message. -/
def torn : FineTick (Fin 2) (Fin 1) Nat := ftick [.arrive (.acquire 0) 7] [] [.dies 7, .writeFails 7, .half 7, .put 7]

/-- A client that has asked twice has both blocks; its connection is lost after the first of them was looked at. -/
def twice : List (FineTick (Fin 2) (Fin 1) Nat) :=
  [ftick [.arrive (.acquire 0) 7, .arrive (.acquire 0) 7], ftick []]

end Ex.Between

open Ex.Between in
/-- **The full claim is false**: `closed` (`tcp_stream.py` 58-62) reads `self.stream` twice, and if the IO loop sets it to
`None` in between, `AttributeError` is raised in the event loop, which ends the run of all clients. -/
theorem C117_false : ¬ C117_statement := by
  intro h
  obtain ⟨x', hx⟩ := h (Fin 2) (Fin 1) (Fin 2) Nat graph conf graph_ok (by decide) [] _ unlucky .init (legal _ _ _ _)
    (by intro k hk; rw [List.mem_singleton.1 hk]; exact decent (by decide))
  have : (match (FineSrv.init graph).iteration graph conf unlucky with
      | .error .attributeError => true
      | _ => false) = true := by decide +kernel
  rw [hx] at this
  cases this

open Ex.Between in
/-- The same by `_get_message` (`tcp_stream.py` 90-94), which reads `self.stream` twice as well, and puts its
`AttributeError` into the queue, from which the event loop raises it. -/
theorem C117_false_half : ∃ x : FineSrv (Fin 2) (Fin 1) (Fin 2) Nat, FineRun graph conf [torn] x ∧
    (∀ k ∈ [torn, ftick []], Decent graph conf k) ∧ (∀ k ∈ [torn, ftick []], ∀ i, (k.look i).b = []) ∧
    x.iteration graph conf (ftick []) = .error .attributeError := by
  have hx : (fineExec graph conf [torn] (FineSrv.init graph)).map (fun x =>
      match x.iteration graph conf (ftick []) with
      | .error .attributeError => true
      | _ => false) = some true := by decide +kernel
  obtain ⟨x, h, e⟩ := fineExec_run _ [torn] [] _
    (by intro k hk; rw [List.mem_singleton.1 hk]; exact legal _ _ _ _) .init hx
  refine ⟨x, h, ?_, ?_, ?_⟩
  · intro k hk
    rcases List.mem_cons.1 hk with rfl | hk
    · exact decent (by decide)
    · rw [List.mem_singleton.1 hk]; exact decent (by decide)
  · intro k hk i
    rcases List.mem_cons.1 hk with rfl | hk
    · simp only [torn, ftick]; split <;> (try split) <;> rfl
    · rw [List.mem_singleton.1 hk]; simp only [ftick]; split <;> (try split) <;> rfl
  · generalize x.iteration graph conf (ftick []) = z at e ⊢
    rcases z with z | z
    · cases z <;> first | rfl | cases e
    · cases e

open Ex.Between in
/-- The condition of `C117_refines` is needed: if a client has two blocks, its connection can be lost after the server has
looked at the first and before it looks at the second, so that only the second is taken back.  No iteration of
`Model/Server` does that. -/
theorem C117_two : ∃ x x' : FineSrv (Fin 2) (Fin 1) (Fin 2) Nat, FineRun graph conf twice x ∧
    x.iteration graph conf (ftick [] [] [] [.dies 7]) = .ok x' ∧
    holder x.srv.out 0 = some 7 ∧ holder x.srv.out 1 = some 7 ∧
    holder x'.srv.out 0 = some 7 ∧ holder x'.srv.out 1 = none ∧
    ∀ k, AnyTick graph k → k.recv = .nothing → x.srv.iteration graph conf k ≠ .ok x'.srv := by
  have hx : (fineExec graph conf twice (FineSrv.init graph)).map (fun x =>
      decide (holder x.srv.out 0 = some 7 ∧ holder x.srv.out 1 = some 7 ∧ x.srv.pending 0 = [] ∧
        (∀ e ∈ x.srv.book, e.2.stream = 7)) &&
      (match x.iteration graph conf (ftick [] [] [] [.dies 7]) with
      | .ok x' => decide (holder x'.srv.out 0 = some 7 ∧ holder x'.srv.out 1 = none)
      | .error _ => false)) = some true := by decide +kernel
  obtain ⟨x, h, e⟩ := fineExec_run _ twice [] _
    (by
      intro k hk
      rcases List.mem_cons.1 hk with rfl | hk
      · exact legal _ _ _ _
      · rw [List.mem_singleton.1 hk]; exact legal _ _ _ _) .init hx
  obtain ⟨e1, e2⟩ := (Bool.and_eq_true _ _).mp e
  obtain ⟨h0, h1, hp, hb⟩ := of_decide_eq_true e1
  rcases hz : x.iteration graph conf (ftick [] [] [] [.dies 7]) with z | x'
  · rw [hz] at e2
    cases e2
  · rw [hz] at e2
    obtain ⟨h2, h3⟩ := of_decide_eq_true e2
    refine ⟨x, x', h, hz, h0, h1, h2, h3, ?_⟩
    rintro k ⟨_, _, hk⟩ hr he
    obtain ⟨hi, _⟩ := h.inv graph_ok (by decide)
    unfold Server.iteration at he
    have hm : x.srv.handleMessages graph conf k.chk k.pick k.now k.recv = .ok x.srv := by
      rw [hr]
      simp only [Server.handleMessages]
      split
      · rfl
      · rename_i t _
        have : x.srv.pending t = [] := by
          have : t = 0 := by omega
          rw [this, hp]
        rw [this]
    rw [hm] at he
    simp only at he
    unfold Server.checkLost at he
    obtain ⟨σ', _, a1, _, a2, _⟩ := lost_sub graph_ok hi hk (fun _ => k.closed 7)
    have e1 : x.srv.book.filter (fun e => k.closed e.2.stream) = x.srv.book.filter (fun _ => k.closed 7) :=
      List.filter_congr (fun e he => by rw [hb e he])
    have e2 : x.srv.book.filter (fun e => ! k.closed e.2.stream) = x.srv.book.filter (fun _ => ! k.closed 7) :=
      List.filter_congr (fun e he => by rw [hb e he])
    rw [Book.getLost_none k.closed _ hi.nodup, e1, e2] at he
    simp only at he
    rw [a1] at he
    simp only [Except.ok.injEq] at he
    have ho : ∀ n, holder x'.srv.out n = holder σ'.out n := by
      intro n
      rw [← he]
      split
      · exact (checkAll_frame σ').holder n
      · rfl
    have b0 := a2 0 7 h0
    have b1 := a2 1 7 h1
    rw [← ho, h2] at b0
    rw [← ho, h3] at b1
    rcases hc : k.closed 7 with _ | _
    · rw [hc] at b1; cases b1
    · rw [hc] at b0; cases b0

namespace Ex.Between

/-- Client 7 gets a block and loses its connection while the server looks; client 8 gets the other block, returns it, gets
the first block and returns it. -/
def story : List (FineTick (Fin 2) (Fin 1) Nat) :=
  [ftick [.arrive (.acquire 0) 7] [.dies 7] [.lost 7], ftick [.put 7, .arrive (.acquire 0) 8], ftick [],
    ftick [.arrive (.release 1 .success) 8], ftick [.arrive (.acquire 0) 8], ftick [.arrive (.release 0 .success) 8]]

end Ex.Between

open Ex.Between in
/-- The hypotheses of the theorems above are met by an execution in which a connection is lost while the server looks, and
all blocks are done in the end. -/
example : ∃ x : FineSrv (Fin 2) (Fin 1) (Fin 2) Nat, FineRun graph conf story x ∧
    (∀ k ∈ story, Decent graph conf k ∧ ∀ s, ¬ Does k (.half s)) ∧
    Shut (x.links 7) ∧ x.srv.out.count (.send 7 0) = 1 ∧ x.srv.out.count (.send 8 0) = 1 ∧ (∀ n, .release n .success ∈ x.srv.out) := by
  have hx : (fineExec graph conf story
        (FineSrv.init graph)).map (fun x => decide (((x.links 7).inner = false ∨ (x.links 7).dead = true) ∧
          x.srv.out.count (.send 7 0) = 1 ∧ x.srv.out.count (.send 8 0) = 1 ∧ (∀ n, .release n .success ∈ x.srv.out))) = some true := by
    decide +kernel
  obtain ⟨x, h, e⟩ := fineExec_run _ _ [] _
    (by
      intro k hk
      simp only [story, List.mem_cons, List.not_mem_nil, or_false] at hk
      rcases hk with rfl | rfl | rfl | rfl | rfl | rfl <;> exact legal _ _ _ _) .init hx
  obtain ⟨e1, e2⟩ := of_decide_eq_true e
  refine ⟨x, h, ?_, e1, e2⟩
  intro k hk
  simp only [story, List.mem_cons, List.not_mem_nil, or_false] at hk
  rcases hk with rfl | rfl | rfl | rfl | rfl | rfl <;>
    exact ⟨decent (by decide), fun s hd => by have := does hd; simp at this⟩

open Ex.Between in
/-- The hypothesis of `C117_refines` and `C117_srun`, in the first iteration of that execution. -/
example : Single graph conf (FineSrv.init graph) (ftick [.arrive (.acquire 0) 7] [.dies 7] [.lost 7]) := by
  intro r σ hr hm
  have h1 : Gets (FineSrv.init graph) (ftick [.arrive (.acquire 0) 7] [.dies 7] [.lost 7]) (.msg (.acquire 0) 7) :=
    ⟨rfl, rfl⟩
  have : r = .msg (.acquire 0) 7 := gets_unique hr h1
  subst this
  have hx : (match (FineSrv.init graph : FineSrv (Fin 2) (Fin 1) (Fin 2) Nat).srv.handleMessages graph conf
        (fun _ _ => .reject) pickMin 0 (.msg (.acquire 0) 7) with
      | .ok σ => decide (holder σ.out 1 = none)
      | .error _ => false) = true := by decide +kernel
  have hm' : (FineSrv.init graph : FineSrv (Fin 2) (Fin 1) (Fin 2) Nat).srv.handleMessages graph conf
        (fun _ _ => .reject) pickMin 0 (.msg (.acquire 0) 7) = .ok σ := hm
  rw [hm'] at hx
  have h0 := of_decide_eq_true hx
  intro n n' s hn hn'
  have hz : ∀ m : Fin 2, m = 0 ∨ m = 1 := by decide
  rcases hz n with rfl | rfl
  · rcases hz n' with rfl | rfl
    · rfl
    · rw [h0] at hn'; cases hn'
  · rw [h0] at hn; cases hn

end Verif
