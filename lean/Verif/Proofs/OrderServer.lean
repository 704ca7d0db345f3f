import Verif.Proofs.OrderRun
import Verif.Proofs.Server

/-! # The server on reordered graphs (lemmas) -/

set_option linter.unusedSectionVars false

namespace Verif
open Spec Verif.Order

variable {N T K S : Type} [DecidableEq N] [DecidableEq T] [DecidableEq K] [DecidableEq S]
  {g g' : DGraph N T K} {cfg : SConf T} {σ σ' : Server N T K S}

theorem recruit_shuffled (h : Shuffled g g') (σ : Server N T K S) : σ.recruit g' = σ.recruit g := by
  unfold Server.recruit Sched.getReadyTasks Sched.stateKeys
  rw [h.rootTasks, h.tasks]

theorem checkAll_shuffled (h : Shuffled g g') (σ : Server N T K S) : σ.checkAll g' = σ.checkAll g := by
  unfold Server.checkAll Server.checked Sched.stateKeys
  rw [h.rootTasks, h.tasks]

theorem server_init_shuffled (h : Shuffled g g') : (Server.init g' : Server N T K S) = Server.init g := by
  unfold Server.init
  rw [init_shuffled h, recruit_shuffled h]

theorem held_release_reordered (h : Reordered g g') (hg : g.OK) {tr : List (Ev N)} {st : Sched N T K} (hr : Run g tr st)
    {n : N} (hn : Held tr n) {status : BlockStatus} (hs : status = .success ∨ status = .failed)
    {pick pick' : Nat → Finset N → N} (hp : LegalPick pick) (hp' : LegalPick pick') :
    st.releaseBlock g' pick' n status = st.releaseBlock g pick n status := by
  have hnn := (hr.inv hg).inv.choose_spec.hNode n hn
  rcases hs with rfl | rfl
  · exact release_success_reordered h hg hnn pick pick' st
  · have hg' := h.toShuffled.ok hg
    obtain ⟨a, ha, _⟩ := (hr.inv hg).release_bad hg hn hp
    obtain ⟨b, hb, _⟩ := ((run_reordered h hg hp' hr).inv hg').release_bad hg' hn hp'
    rw [ha, hb, release_failed_reordered h hg hnn ha hb]

theorem server_release_reordered (h : Reordered g g') (hg : g.OK) (hc : SCore g σ) {n : N} (hn : holder σ.out n ≠ none)
    {status : BlockStatus} (hs : status = .success ∨ status = .failed) {pick pick' : Nat → Finset N → N}
    (hp : LegalPick pick) (hp' : LegalPick pick') : σ.release g' pick' n status = σ.release g pick n status := by
  unfold Server.release
  rw [held_release_reordered h hg hc.run ((hc.held n).2 hn) hs hp hp']
  rcases σ.sched.releaseBlock g pick n status with e | st'
  · rfl
  · simp only [checkAll_shuffled h.toShuffled, recruit_shuffled h.toShuffled, h.task]

theorem safeRelease_reordered (h : Reordered g g') (hg : g.OK) (hi : SInv g σ) {n : N} (hn : n ∈ g.nodes) (s : S)
    {status : BlockStatus} (hs : status = .success ∨ status = .failed) {pick pick' : Nat → Finset N → N}
    (hp : LegalPick pick) (hp' : LegalPick pick') :
    σ.safeRelease g' pick' n status s = σ.safeRelease g pick n status s := by
  unfold Server.safeRelease
  rw [h.key]
  split
  · next hv =>
    have hh : holder σ.out n ≠ none := by
      rw [← hi.book n hn, validReturn_iff.1 hv]
      exact Option.some_ne_none s
    rw [server_release_reordered h hg hi.toSCore hh hs hp hp']
  · rfl

theorem handleAcquire_reordered (h : Reordered g g') (hg : g.OK) (hi : SInv g σ) (chk : Nat → N → Check) (now : Int)
    (t : T) (s : S) : σ.handleAcquire g' cfg chk now t s = σ.handleAcquire g cfg chk now t s := by
  unfold Server.handleAcquire
  rw [acquire_reordered h hg (hi.run.inv hg)]
  rcases σ.sched.acquireBlock g chk t with e | ⟨skips, r, st'⟩
  · rfl
  · simp only [recruit_shuffled h.toShuffled, h.key]

theorem handle_reordered (h : Reordered g g') (hg : g.OK) (hi : SInv g σ) {m : Msg N T} (hm : GoodMsg g cfg m) (s : S)
    (chk : Nat → N → Check) {pick pick' : Nat → Finset N → N} (hp : LegalPick pick) (hp' : LegalPick pick') (now : Int) :
    σ.handle g' cfg chk pick' now m s = σ.handle g cfg chk pick now m s := by
  unfold Server.handle
  simp only [checkAll_shuffled h.toShuffled]
  cases m with
  | acquire t => simp only [handleAcquire_reordered h hg hi]
  | release n status => simp only [safeRelease_reordered h hg hi hm.1 s hm.2 hp hp']
  | blockFailed n w => simp only [safeRelease_reordered h hg hi hm s (Or.inr rfl) hp hp']
  | clientException => rfl
  | other => rfl

theorem handleMessages_reordered (h : Reordered g g') (hg : g.OK) (hi : SInv g σ) (r : Server.Recv N T S)
    (hr : ∀ m s, r = .msg m s → GoodMsg g cfg m) (chk : Nat → N → Check) {pick pick' : Nat → Finset N → N}
    (hp : LegalPick pick) (hp' : LegalPick pick') (now : Int) :
    σ.handleMessages g' cfg chk pick' now r = σ.handleMessages g cfg chk pick now r := by
  cases r with
  | msg m s => exact handle_reordered h hg hi (hr m s rfl) s chk hp hp' now
  | closed => rfl
  | nothing =>
    unfold Server.handleMessages
    simp only
    split
    · rfl
    · rename_i t ht
      split
      · rfl
      · exact handle_reordered (m := .acquire t) h hg (hi.pending _) (List.mem_of_find?_eq_some ht) _ chk hp hp' now

theorem releaseLost_reordered (h : Reordered g g') (hg : g.OK) {pick pick' : N → Nat → Finset N → N}
    (hp : ∀ n, LegalPick (pick n)) (hp' : ∀ n, LegalPick (pick' n)) : ∀ (L : List N) (σ : Server N T K S), SCore g σ →
      L.Nodup → (∀ n ∈ L, holder σ.out n ≠ none) →
      Server.releaseLost g' pick' L σ = Server.releaseLost g pick L σ
  | [], σ, _, _, _ => rfl
  | n :: L, σ, hc, hnd, hL => by
    obtain ⟨hnL, hnd⟩ := List.nodup_cons.1 hnd
    have hn := hL n List.mem_cons_self
    obtain ⟨σ1, r1, r2, _, _, r5, _⟩ := release_spec hg hc hn (status := .failed) (Or.inr rfl) (hp n)
    simp only [Server.releaseLost]
    rw [server_release_reordered h hg hc hn (Or.inr rfl) (hp n) (hp' n), r1]
    refine releaseLost_reordered h hg hp hp' L σ1 r2 hnd (fun x hx => ?_)
    rw [r5, if_neg (fun e : x = n => hnL (e ▸ hx))]
    exact hL x (List.mem_cons_of_mem _ hx)

theorem checkLost_reordered (h : Reordered g g') (hg : g.OK) (hi : SInv g σ) {pick pick' : N → Nat → Finset N → N}
    (hp : ∀ n, LegalPick (pick n)) (hp' : ∀ n, LegalPick (pick' n)) (closed : S → Bool) (clock : Nat → Int) :
    σ.checkLost g' pick' closed clock = σ.checkLost g pick closed clock := by
  unfold Server.checkLost
  rw [Book.getLost_none closed clock hi.nodup]
  refine releaseLost_reordered h hg hp hp' _ _ ⟨hi.run, hi.held⟩ ?_ ?_
  · refine List.Nodup.map_on ?_ (List.Nodup.filter _ hi.nodup.of_map)
    intro a ha b hb hab
    have ha' := List.mem_of_mem_filter ha
    have hb' := List.mem_of_mem_filter hb
    refine List.inj_on_of_nodup_map hi.nodup ha' hb' ?_
    rw [(hi.entry a ha').2, (hi.entry b hb').2, hab]
  · intro n hn
    obtain ⟨e, he, rfl⟩ := List.mem_map.1 hn
    obtain ⟨h1, h2⟩ := List.mem_filter.1 he
    obtain ⟨h3, h4⟩ := hi.entry e h1
    have := hi.book _ h3
    rw [← h4, Book.get_of_mem (k := e.1) (l := e.2) hi.nodup h1] at this
    change holder σ.out _ ≠ none
    rw [← this]
    exact Option.some_ne_none _

theorem iteration_reordered (h : Reordered g g') (hg : g.OK) (hi : SInv g σ) {k k' : Server.Tick N T S}
    (hk : GoodTick g cfg k) (hk' : GoodTick g cfg k') (hs : SamePops k k') :
    σ.iteration g' cfg k' = σ.iteration g cfg k := by
  obtain ⟨σ1, h1, h2⟩ := handleMessages_ok hg hi k.recv hk.1 k.chk hk.2.1 k.now
  unfold Server.iteration
  rw [hs]
  simp only
  rw [handleMessages_reordered h hg hi k.recv hk.1 k.chk hk.2.1 hk'.2.1, h1]
  simp only
  rw [checkLost_reordered h hg h2 hk.2.2 hk'.2.2]
  simp only [checkAll_shuffled h.toShuffled]

theorem forall₂_snoc {α β : Type} {R : α → β → Prop} {b : α} : ∀ {a : List α} {c : List β},
    List.Forall₂ R (a ++ [b]) c → ∃ l k, List.Forall₂ R a l ∧ R b k ∧ c = l ++ [k]
  | [], c, h => by
    obtain ⟨k, l, hk, hl, rfl⟩ := List.forall₂_cons_left_iff.1 h
    cases hl
    exact ⟨[], k, .nil, hk, rfl⟩
  | x :: a, c, h => by
    obtain ⟨k, l, hk, hl, rfl⟩ := List.forall₂_cons_left_iff.1 h
    obtain ⟨l', k', h1, h2, rfl⟩ := forall₂_snoc hl
    exact ⟨k :: l', k', .cons hk h1, h2, rfl⟩

theorem goodTick_shuffled (h : Shuffled g g') {k : Server.Tick N T S} : GoodTick g' cfg k ↔ GoodTick g cfg k := by
  unfold GoodTick
  refine and_congr ?_ Iff.rfl
  refine forall_congr' fun m => forall_congr' fun s => forall_congr' fun _ => ?_
  cases m <;> simp [GoodMsg, h.nodes]

theorem srun_reordered (h : Reordered g g') (hg : g.OK) {ks ks' : List (Server.Tick N T S)} (hr : SRun g cfg ks σ)
    (hks : List.Forall₂ SamePops ks ks') (hgood : ∀ k ∈ ks', GoodTick g cfg k) : SRun g' cfg ks' σ := by
  induction hr generalizing ks' with
  | init => cases hks; rw [← server_init_shuffled h.toShuffled]; exact .init
  | step k hr hstop hk he ih =>
    obtain ⟨l, k', hl, hkk, rfl⟩ := forall₂_snoc hks
    have hgk := hgood k' (by simp)
    refine .step k' (ih hl (fun x hx => hgood x (by simp [hx]))) hstop ((goodTick_shuffled h.toShuffled).2 hgk) ?_
    rw [iteration_reordered h hg (hr.inv hg) hk hgk hkk]
    exact he

end Verif
