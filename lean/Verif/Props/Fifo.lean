import Verif.Proofs.Fifo
import Verif.Proofs.Legal
import Verif.Proofs.Server
import Verif.Spec.ServerExec

/-! # First come, first served: C98 -/

namespace Verif

open Spec

variable {N T K S : Type} [DecidableEq N] [DecidableEq T] [DecidableEq K] [DecidableEq S] {g : DGraph N T K}
  {tr : List (Ev N)} {st : Sched N T K}

omit [DecidableEq N] [DecidableEq K] in
theorem mem_served {t : T} {n : N} {tr : List (Ev N)} :
    n ∈ served g t tr ↔ (.hand n ∈ tr ∨ .skip n ∈ tr) ∧ g.task n = t := by
  unfold served
  rw [List.mem_filterMap]
  constructor
  · rintro ⟨e, he, hn⟩
    cases e with
    | hand m =>
      simp only at hn
      split at hn
      · cases hn
        rename_i ht
        exact ⟨Or.inl he, ht⟩
      · cases hn
    | skip m =>
      simp only at hn
      split at hn
      · cases hn
        rename_i ht
        exact ⟨Or.inr he, ht⟩
      · cases hn
    | good m => cases hn
    | bad m => cases hn
  · rintro ⟨h | h, ht⟩
    · exact ⟨_, h, by simp [ht]⟩
    · exact ⟨_, h, by simp [ht]⟩

/-- C98: at any time `pre` of a history there is an order of the blocks of a task that are ready, and what is handed out
or skipped from then on are these blocks in this order, then blocks that have become ready since; the remaining ones are
what is ready now. -/
theorem C98_in_order (hg : g.OK) (h : Run g tr st) {pre post : List (Ev N)} (he : tr = pre ++ post) (t : T) :
    ∃ waiting later still : List N, waiting.Nodup ∧ (∀ n, n ∈ waiting ↔ Ready g pre n ∧ g.task n = t) ∧
      still.Nodup ∧ (∀ n, n ∈ still ↔ Ready g tr n ∧ g.task n = t) ∧
      waiting ++ later = served g t post ++ still := by
  obtain ⟨w, h1, h2, arr, h3⟩ := h.fifo hg pre post he t
  exact ⟨w, arr, st.line t, h1, h2, (h.inv hg).line_nodup t, (h.inv hg).queue_ready t, h3⟩

/-- C98: a block that becomes ready later is not handed out (or skipped) before a block of the same task that is ready
already. -/
theorem C98_no_overtaking (hg : g.OK) (h : Run g tr st) {pre mid rest : List (Ev N)} {e : Ev N}
    (he : tr = pre ++ (mid ++ e :: rest)) {a b : N} (ha : Ready g pre a) (hb : ¬ Ready g pre b) (ht : g.task a = g.task b)
    (hab : e = .hand b ∨ e = .skip b) : .hand a ∈ mid ∨ .skip a ∈ mid := by
  obtain ⟨w, h1, h2, arr, h3⟩ := h.fifo hg pre _ he (g.task b)
  have hs : served g (g.task b) (mid ++ e :: rest) = served g (g.task b) mid ++ b :: served g (g.task b) rest := by
    rw [served_append]
    congr 1
    unfold served
    rcases hab with rfl | rfl <;> simp
  rw [hs, List.append_assoc, List.cons_append] at h3
  have hlen : w.length ≤ (served g (g.task b) mid).length := by
    by_contra hc
    have h4 := congrArg (fun l => l[(served g (g.task b) mid).length]?) h3
    rw [List.getElem?_append_left (by omega), List.getElem?_append_right (le_refl _), Nat.sub_self,
      List.getElem?_cons_zero] at h4
    have hbw : b ∈ w := List.mem_of_getElem? h4
    exact hb ((h2 b).1 hbw).1
  have hpre : w <+: served g (g.task b) mid :=
    List.prefix_of_prefix_length_le ⟨arr, h3⟩ ⟨_, rfl⟩ hlen
  have : a ∈ served g (g.task b) mid := hpre.subset ((h2 a).2 ⟨ha, ht⟩)
  exact (mem_served.1 this).1

/-- C98: a block that failed is tried again only after all blocks of its task that were ready when it failed. -/
theorem C98_retry_last (hg : g.OK) (h : Run g tr st) {pre mid rest : List (Ev N)} {a b : N}
    (he : tr = pre ++ .bad b :: (mid ++ .hand b :: rest)) (ha : Ready g pre a) (ht : g.task a = g.task b) :
    .hand a ∈ mid ∨ .skip a ∈ mid := by
  have hb : Held pre b := by
    have := (loose_legal hg h) pre (.bad b) _ he
    exact this
  have h1 := C98_no_overtaking hg h (pre := pre) (mid := .bad b :: mid) (rest := rest) (e := .hand b) (a := a) (b := b)
    (by rw [he]; rfl) ha (fun hr => hr.2.2.2.2 hb) ht (Or.inl rfl)
  simpa using h1

/-- C98: a ready block waits at most for as many others as are ready when it becomes ready: after as many blocks of the
task as are ready now have been handed out or skipped, it was among them. -/
theorem C98_bounded_wait (hg : g.OK) (h : Run g tr st) {pre post : List (Ev N)} (he : tr = pre ++ post) {a : N}
    (ha : Ready g pre a) {ready : List N} (hr : ∀ n, Ready g pre n → g.task n = g.task a → n ∈ ready)
    (hl : ready.length ≤ (served g (g.task a) post).length) : .hand a ∈ post ∨ .skip a ∈ post := by
  obtain ⟨w, h1, h2, arr, h3⟩ := h.fifo hg pre post he (g.task a)
  have hlen : w.length ≤ ready.length :=
    (h1.subperm (fun n hn => hr n ((h2 n).1 hn).1 ((h2 n).1 hn).2)).length_le
  have hpre : w <+: served g (g.task a) post :=
    List.prefix_of_prefix_length_le ⟨arr, h3⟩ ⟨_, rfl⟩ (le_trans hlen hl)
  exact (mem_served.1 (hpre.subset ((h2 a).2 ⟨ha, rfl⟩))).1

/-- C98 for the server: it sends the blocks of a task in the order in which they became ready. -/
theorem C98_server (hg : g.OK) {cfg : SConf T} {ks : List (Server.Tick N T S)} {σ : Server N T K S}
    (h : SRun g cfg ks σ) {pre mid rest : List (Out N T S)} {s : S} {a b : N}
    (he : σ.out = pre ++ (mid ++ .send s b :: rest)) (ha : Ready g (evs pre) a) (hb : ¬ Ready g (evs pre) b)
    (ht : g.task a = g.task b) : (∃ s', .send s' a ∈ mid) ∨ .skip a ∈ mid := by
  have hr := (h.inv hg).run
  have he' : evs σ.out = evs pre ++ (evs mid ++ .hand b :: evs rest) := by
    rw [he]
    simp [evs, toEv]
  rcases C98_no_overtaking hg hr he' ha hb ht (Or.inl rfl) with hm | hm
  · obtain ⟨o, ho, hoe⟩ := List.mem_filterMap.1 hm
    cases o with
    | send s' n => cases hoe; exact Or.inl ⟨s', ho⟩
    | release n st => cases st <;> cases hoe
    | _ => cases hoe
  · obtain ⟨o, ho, hoe⟩ := List.mem_filterMap.1 hm
    cases o with
    | skip n => cases hoe; exact Or.inr ho
    | release n st => cases st <;> cases hoe
    | _ => cases hoe

namespace Ex

/-- Three independent blocks and one that needs the first, all of one task, with a retry. -/
def queueGraph : DGraph (Fin 4) (Fin 1) (Fin 4) :=
  finGraph 4 1 (fun n => if n = 3 then [0] else []) (fun _ => 0) (fun _ => 1) [0]

theorem queueGraph_ok : queueGraph.OK :=
  finGraph_ok (by decide) (by decide) (by decide) (by decide)

/-- Block 0 fails, is tried again after 1 and 2; block 3 becomes ready last. -/
example : ∃ tr st, Run queueGraph tr st ∧
    tr = [.hand 0, .bad 0, .hand 1, .hand 2, .hand 0, .good 0, .hand 3] ∧
    Ready queueGraph [.hand 0] 1 ∧ ¬ Ready queueGraph [.hand 0] 0 ∧
    (Ev.hand 1 ∈ tr.drop 1 ∨ Ev.skip 1 ∈ tr.drop 1) := by
  obtain ⟨tr, st, h, he⟩ := exec_map (g := queueGraph) pickMin_legal
    (as := [.acq 0 [], .bad 0, .acq 0 [], .acq 0 [], .acq 0 [], .good 0, .acq 0 []])
    (f := fun x => x.1) (v := [.hand 0, .bad 0, .hand 1, .hand 2, .hand 0, .good 0, .hand 3]) (by decide)
  simp only at he
  refine ⟨tr, st, h, he, by decide, by decide, ?_⟩
  have := C98_bounded_wait queueGraph_ok h (pre := [.hand 0]) (post := tr.drop 1) (by rw [he]; rfl) (a := 1)
    (by decide) (ready := [1, 2]) (by decide) (by rw [he]; decide)
  exact this

example : ∃ tr st, Run queueGraph tr st ∧ ∃ mid rest, tr = [.hand 0] ++ .bad 0 :: (mid ++ .hand 0 :: rest) ∧
    Ready queueGraph [.hand 0] 2 ∧ (.hand 2 ∈ mid ∨ .skip 2 ∈ mid) := by
  obtain ⟨tr, st, h, he⟩ := exec_map (g := queueGraph) pickMin_legal
    (as := [.acq 0 [], .bad 0, .acq 0 [], .acq 0 [], .acq 0 [], .good 0, .acq 0 []])
    (f := fun x => x.1) (v := [.hand 0, .bad 0, .hand 1, .hand 2, .hand 0, .good 0, .hand 3]) (by decide)
  simp only at he
  have e : tr = [.hand 0] ++ .bad 0 :: ([.hand 1, .hand 2] ++ .hand 0 :: [.good 0, .hand 3]) := by rw [he]; rfl
  exact ⟨tr, st, h, _, _, e, by decide, C98_retry_last queueGraph_ok h e (by decide) (by decide)⟩

/-- The server; client 8 gets the block that was ready, not the one that client 7 has returned. -/
example : ∃ (ks : List (Server.Tick (Fin 4) (Fin 1) Nat)) (σ : Server (Fin 4) (Fin 1) (Fin 4) Nat),
    SRun queueGraph ⟨[0], fun _ => none⟩ ks σ ∧ ∃ pre mid rest, σ.out = pre ++ (mid ++ .send 8 0 :: rest) ∧
      Ready queueGraph (evs pre) 1 ∧ ¬ Ready queueGraph (evs pre) 0 := by
  have hx : (sexec queueGraph ⟨[0], fun _ => none⟩ (ticks [acq 0 7, bad 0 7, acq 0 7, acq 0 7, acq 0 8])).map
      (fun σ => decide (∃ i ∈ List.range 20, ∃ j ∈ List.range 20, σ.out[j]? = some (.send 8 0) ∧ i ≤ j ∧
        Ready queueGraph (evs (σ.out.take i)) 1 ∧ ¬ Ready queueGraph (evs (σ.out.take i)) 0)) = some true := by
    decide +kernel
  obtain ⟨σ, h, e⟩ := sexec_run (S := Nat) (ticks_legal _) _ hx
  obtain ⟨i, _, j, _, e1, e2, e3, e4⟩ := of_decide_eq_true e
  refine ⟨_, σ, h, σ.out.take i, (σ.out.drop i).take (j - i), σ.out.drop (j + 1), ?_, e3, e4⟩
  obtain ⟨hj, hj'⟩ := List.getElem?_eq_some_iff.1 e1
  rw [← hj', ← List.drop_eq_getElem_cons hj]
  have : List.drop j σ.out = List.drop (j - i) (List.drop i σ.out) := by rw [List.drop_drop]; congr 1; omega
  rw [this, List.take_append_drop, List.take_append_drop]

end Ex
end Verif
