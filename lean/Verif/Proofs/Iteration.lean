import Verif.Proofs.SystemKeep

/-! # What one iteration does to requests and to held blocks -/

set_option linter.unusedSectionVars false

namespace Verif

open Spec

variable {N T K S : Type} [DecidableEq N] [DecidableEq T] [DecidableEq K] [DecidableEq S]
  {g : DGraph N T K} {cfg : SConf T} {σ σ' : Server N T K S}

/-- An answer of the server to a client. -/
def ansOf : Out N T S → Option (S × Option N)
  | .send s n => some (s, some n)
  | .shutdown s _ => some (s, none)
  | _ => none

/-- What a request for a block of task `t` by client `s` does; `h` and `h'` are the holders before and after. -/
def AcquireEffect (g : DGraph N T K) (t : T) (s : S) (p p' : T → List S) (h h' : N → Option S)
    (os : List (Out N T S)) : Prop :=
  (∃ n ∈ g.nodes, g.task n = t ∧ os.filterMap ansOf = [(s, some n)] ∧ p' = p ∧ h n = none ∧
    h' = fun m => if m = n then some s else h m) ∨
  (os.filterMap ansOf = [(s, none)] ∧ p' = p ∧ h' = h) ∨
  (os.filterMap ansOf = [] ∧ p' = upd p t (p t ++ [s]) ∧ h' = h)

/-- What client `s` giving back block `n` does. -/
def ReturnEffect (n : N) (s : S) (p p' : T → List S) (h h' : N → Option S) (os : List (Out N T S)) : Prop :=
  os.filterMap ansOf = [] ∧ p' = p ∧ h' = fun m => if m = n ∧ h n = some s then none else h m

theorem ans_silent {os : List (Out N T S)} (h : ∀ o ∈ os, Silent o) : os.filterMap ansOf = [] := by
  rw [List.filterMap_eq_nil_iff]
  intro o ho
  have := h o ho
  cases o <;> first | rfl | exact absurd this id

theorem ans_skips (l : List N) : (l.map (.skip : N → Out N T S)).filterMap ansOf = [] := by
  rw [List.filterMap_eq_nil_iff]
  intro o ho
  obtain ⟨n, _, rfl⟩ := List.mem_map.1 ho
  rfl

/-- What the server does with a message. -/
def MsgEffect (g : DGraph N T K) (s : S) (p p' : T → List S) (h h' : N → Option S)
    (os : List (Out N T S)) : Msg N T → Prop
  | .acquire t => AcquireEffect g t s p p' h h' os
  | .release n _ => ReturnEffect n s p p' h h' os
  | .blockFailed n _ => ReturnEffect n s p p' h h' os
  | _ => False

theorem handleAcquire_effect (hg : g.Loose) (h : SInv g σ) {chk : Nat → N → Check} {now : Int} {t : T} {s : S}
    (ht : t ∈ cfg.served) (he : σ.handleAcquire g cfg chk now t s = .ok σ') :
    SInv g σ' ∧ ∃ os, σ'.out = σ.out ++ os ∧
      AcquireEffect g t s σ.pending σ'.pending (holder σ.out) (holder σ'.out) os := by
  obtain ⟨σ1, skips, r, h1, h2, h3, h4⟩ := handleAcquire_spec (cfg := cfg) hg h chk now s ht
  rw [h1] at he
  cases he
  refine ⟨h2, ?_⟩
  rcases r with _ | n
  · dsimp only at h4
    obtain ⟨_, h4⟩ := h4
    split at h4
    · obtain ⟨hp, e⟩ := h4
      obtain ⟨os, eo, ho⟩ := (recruit_frame (g := g) { σ with
        sched := σ'.sched, out := σ.out ++ skips.map .skip ++ [.shutdown s t] }).out
      rw [← e] at eo
      refine ⟨skips.map .skip ++ [.shutdown s t] ++ os, ?_, Or.inr (Or.inl ⟨?_, hp, ?_⟩)⟩
      · rw [eo]; simp
      · rw [List.filterMap_append, List.filterMap_append, ans_skips, ans_silent ho]; rfl
      · funext m
        rw [eo, holder_silent ho]
        change holder (σ.out ++ skips.map .skip ++ [.shutdown s t]) m = _
        rw [holder_append, holder_skips]
        rfl
    · obtain ⟨hp, eo, _⟩ := h4
      refine ⟨skips.map .skip, eo, Or.inr (Or.inr ⟨ans_skips _, hp, ?_⟩)⟩
      funext m
      rw [eo, holder_skips]
  · dsimp only at h4
    obtain ⟨eo, hp, hn, hm, htn, _⟩ := h4
    refine ⟨skips.map .skip ++ [.send s n, .acquired t], ?_, Or.inl ⟨n, hm, htn, ?_, hp, hn, ?_⟩⟩
    · rw [eo, List.append_assoc]
    · rw [List.filterMap_append, ans_skips]; rfl
    · funext m
      rw [eo, holder_append, holder_skips]
      simp only [List.foldl_cons, List.foldl_nil, holderStep]
      by_cases hmn : m = n
      · subst hmn; simp
      · rw [if_neg (fun e => hmn e.symm), if_neg hmn]

theorem safeRelease_effect (hg : g.Loose) (h : SInv g σ) {n : N} (hn : n ∈ g.nodes) {s : S}
    {status : BlockStatus} (hs : status = .success ∨ status = .failed) {pick : Nat → Finset N → N}
    (hp : LegalPick pick) (he : σ.safeRelease g pick n status s = .ok σ') :
    SInv g σ' ∧ ∃ os, σ'.out = σ.out ++ os ∧
      ReturnEffect n s σ.pending σ'.pending (holder σ.out) (holder σ'.out) os := by
  obtain ⟨σ1, s1, s2, s3, s4⟩ := safeRelease_spec hg h hn (s := s) hs hp
  rw [s1] at he
  cases he
  refine ⟨s2, ?_⟩
  split at s4
  · rename_i hv
    obtain ⟨os, e, ho⟩ := s4
    refine ⟨_, e, ?_, s3, ?_⟩
    · rw [List.filterMap_cons]
      exact ans_silent ho
    · funext m
      rw [e, List.append_cons, holder_silent ho, holder_append]
      simp only [List.foldl_cons, List.foldl_nil, holderStep, hv, and_true]
      by_cases hmn : m = n
      · subst hmn; simp
      · rw [if_neg (fun e => hmn e.symm), if_neg hmn]
  · rename_i hv
    subst s4
    refine ⟨[], by simp, rfl, rfl, ?_⟩
    funext m
    rw [if_neg (fun e => hv e.2)]

theorem MsgEffect.frame {s : S} {p : T → List S} {h : N → Option S} {os : List (Out N T S)} {m : Msg N T}
    {a b : Server N T K S} (he : MsgEffect g s p a.pending h (holder a.out) os m) (ha : a.out = σ.out ++ os)
    (hf : Frame a b) : ∃ os', b.out = σ.out ++ os' ∧ MsgEffect g s p b.pending h (holder b.out) os' m := by
  obtain ⟨os1, e1, h1⟩ := hf.out
  refine ⟨os ++ os1, by rw [e1, ha, List.append_assoc], ?_⟩
  have hh : holder b.out = holder a.out := funext fun n => hf.holder n
  have ho : (os ++ os1).filterMap ansOf = os.filterMap ansOf := by
    rw [List.filterMap_append, ans_silent h1, List.append_nil]
  rw [hf.pending, hh]
  cases m with
  | acquire t => simpa only [MsgEffect, AcquireEffect, ho] using he
  | release n st => simpa only [MsgEffect, ReturnEffect, ho] using he
  | blockFailed n w => simpa only [MsgEffect, ReturnEffect, ho] using he
  | clientException => exact he
  | other => exact he

theorem handle_effect (hg : g.Loose) (h : SInv g σ) {m : Msg N T} (hm : GoodMsg g cfg m) {s : S}
    {chk : Nat → N → Check} {pick : Nat → Finset N → N} (hp : LegalPick pick) {now : Int}
    (he : σ.handle g cfg chk pick now m s = .ok σ') :
    SInv g σ' ∧ ∃ os, σ'.out = σ.out ++ os ∧
      MsgEffect g s σ.pending σ'.pending (holder σ.out) (holder σ'.out) os m := by
  cases m with
  | acquire t =>
    obtain ⟨σ1, _, _, h1, _⟩ := handleAcquire_spec (cfg := cfg) hg h chk now s hm
    simp only [Server.handle, h1] at he
    cases he
    obtain ⟨i1, os, e1, f1⟩ := handleAcquire_effect hg h hm h1
    exact ⟨i1.frame (checkAll_frame _), MsgEffect.frame (m := .acquire t) f1 e1 (checkAll_frame _)⟩
  | release n status =>
    obtain ⟨σ1, h1, _⟩ := safeRelease_spec hg h hm.1 (s := s) hm.2 hp
    simp only [Server.handle, h1] at he
    cases he
    obtain ⟨i1, os, e1, f1⟩ := safeRelease_effect hg h hm.1 hm.2 hp h1
    exact ⟨i1.frame (checkAll_frame _), MsgEffect.frame (m := .release n status) f1 e1 (checkAll_frame _)⟩
  | blockFailed n w =>
    obtain ⟨σ1, h1, _⟩ := safeRelease_spec hg h (n := n) hm (s := s) (status := .failed) (Or.inr rfl) hp
    simp only [Server.handle, h1] at he
    cases he
    obtain ⟨i1, os, e1, f1⟩ := safeRelease_effect hg h hm (Or.inr rfl) hp h1
    have hf0 : Frame σ1 (σ1.emit [.blockFailure n w]) :=
      ⟨rfl, rfl, rfl, [.blockFailure n w], rfl, by simp [Silent]⟩
    have hf : Frame σ1 ((σ1.emit [.blockFailure n w]).checkAll g) := hf0.trans (checkAll_frame _)
    exact ⟨i1.frame hf, MsgEffect.frame (m := .blockFailed n w) f1 e1 hf⟩
  | clientException => exact absurd hm id
  | other => exact absurd hm id

/-- The request or message that an iteration deals with, and the delayed requests without it. -/
inductive Takes (cfg : SConf T) (σ : Server N T K S) :
    Server.Recv N T S → Option (Msg N T × S) → (T → List S) → Prop where
  | msg (m : Msg N T) (s : S) : Takes cfg σ (.msg m s) (some (m, s)) σ.pending
  | closed : Takes cfg σ .closed none σ.pending
  | idle : (∀ t ∈ cfg.served, σ.pending t = []) → Takes cfg σ .nothing none σ.pending
  | again (t : T) (s : S) (rest : List S) : t ∈ cfg.served → σ.pending t = s :: rest →
      Takes cfg σ .nothing (some (.acquire t, s)) (upd σ.pending t rest)

/-- What the server does with the message, if there is one. -/
def TakeEffect (g : DGraph N T K) (p p' : T → List S) (h h' : N → Option S) (os : List (Out N T S)) :
    Option (Msg N T × S) → Prop
  | none => os.filterMap ansOf = [] ∧ p' = p ∧ h' = h
  | some (m, s) => MsgEffect g s p p' h h' os m

theorem handleMessages_effect (hg : g.Loose) (h : SInv g σ) {r : Server.Recv N T S}
    (hr : ∀ m s, r = .msg m s → GoodMsg g cfg m) {chk : Nat → N → Check} {pick : Nat → Finset N → N}
    (hp : LegalPick pick) {now : Int} (he : σ.handleMessages g cfg chk pick now r = .ok σ') :
    SInv g σ' ∧ ∃ o p os, Takes cfg σ r o p ∧ σ'.out = σ.out ++ os ∧
      TakeEffect g p σ'.pending (holder σ.out) (holder σ'.out) os o := by
  cases r with
  | msg m s =>
    obtain ⟨i, os, e, f⟩ := handle_effect hg h (hr m s rfl) hp he
    exact ⟨i, _, _, os, .msg m s, e, f⟩
  | closed => cases he; exact ⟨h, _, _, [], .closed, by simp, rfl, rfl, rfl⟩
  | nothing =>
    unfold Server.handleMessages at he
    dsimp only at he
    split at he
    · rename_i hf
      cases he
      refine ⟨h, _, _, [], .idle ?_, by simp, rfl, rfl, rfl⟩
      intro t ht
      have := List.find?_eq_none.1 hf t ht
      simpa using this
    · rename_i t ht
      have hts := List.mem_of_find?_eq_some ht
      have hnz := List.find?_some ht
      split at he
      · rename_i hnil
        rw [hnil] at hnz
        simp at hnz
      · rename_i s rest hpt
        obtain ⟨i, os, e, f⟩ := handle_effect (cfg := cfg) hg (h.pending (upd σ.pending t rest))
          (m := .acquire t) hts hp he
        exact ⟨i, _, _, os, .again t s rest hts hpt, e, f⟩

/-- One iteration: a message is handled, then the blocks of clients whose streams are closed are taken back. -/
theorem iteration_effect (hg : g.Loose) (h : SInv g σ) {k : Server.Tick N T S} (hk : GoodTick g cfg k)
    (he : σ.iteration g cfg k = .ok σ') :
    ∃ o p os h1, Takes cfg σ k.recv o p ∧ σ'.out = σ.out ++ os ∧
      TakeEffect g p σ'.pending (holder σ.out) h1 os o ∧
      ∀ n, holder σ'.out n = if ∃ s, h1 n = some s ∧ k.closed s = true then none else h1 n := by
  obtain ⟨σ1, σ2, e1, e2, e3⟩ := iteration_split he
  obtain ⟨i1, o, p, os, t1, o1, f1⟩ := handleMessages_effect hg h hk.1 hk.2.1 e1
  obtain ⟨σ3, os', L, c1, c2, c3, c4, c5, c6, c7, c8, c9, c10, c11⟩ := checkLost_ok hg i1 hk.2.2 k.closed k.clock
  rw [c1] at e2
  cases e2
  have hf : Frame σ2 σ' := by
    rw [e3]
    split
    · exact checkAll_frame _
    · exact Frame.refl _
  obtain ⟨os2, e4, h4⟩ := hf.out
  have ha : (os ++ (os' ++ os2)).filterMap ansOf = os.filterMap ansOf := by
    rw [List.filterMap_append, List.filterMap_append, ans_silent h4, List.append_nil]
    have : os'.filterMap ansOf = [] := by
      rw [List.filterMap_eq_nil_iff]
      intro x hx
      rcases c6 x hx with hs | ⟨n, _, rfl⟩
      · cases x <;> first | rfl | exact absurd hs id
      · rfl
    rw [this, List.append_nil]
  refine ⟨o, p, os ++ (os' ++ os2), holder σ1.out, t1, by rw [e4, c5, o1]; simp, ?_, ?_⟩
  · rw [hf.pending, c4]
    rcases o with _ | ⟨m, s⟩
    · exact ⟨ha.trans f1.1, f1.2⟩
    · cases m with
      | acquire t => simpa only [TakeEffect, MsgEffect, AcquireEffect, ha] using f1
      | release n st => simpa only [TakeEffect, MsgEffect, ReturnEffect, ha] using f1
      | blockFailed n w => simpa only [TakeEffect, MsgEffect, ReturnEffect, ha] using f1
      | clientException => exact f1
      | other => exact f1
  · intro n
    rw [hf.holder, c11]
    by_cases hL : n ∈ L
    · rw [if_pos hL, if_pos ((c9 n).1 hL)]
    · rw [if_neg hL, if_neg (fun h => hL ((c9 n).2 h))]

end Verif
