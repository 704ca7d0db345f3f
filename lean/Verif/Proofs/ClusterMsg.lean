import Verif.Proofs.ClusterOne
import Verif.Spec.ClusterData

/-! # What messages say, for any notion of what they should say -/

set_option linter.unusedSectionVars false

namespace Verif

open Spec

variable {N T K S : Type} [DecidableEq N] [DecidableEq T] [DecidableEq K] [DecidableEq S]
  {g : DGraph N T K} {c : SysConf T} {es : List (ClEv N T S)} {x y : Cluster N T K S}

/-- What clients know (`R`), and what the queue of the server says about blocks that were processed (`Q`). -/
structure MsgInv (R : S → N → (BodyEnd → Prop) → Prop) (Q : S → N → Prop) (x : Cluster N T K S) : Prop where
  conn : ∀ s k, x.conn s = some k → ConnHist (R s) k
  queue : ∀ n s, (.release n .success, s) ∈ x.sys.queue → Q s n

theorem MsgInv.mono {R R' : S → N → (BodyEnd → Prop) → Prop} {Q Q' : S → N → Prop} (h : MsgInv R Q x)
    (hR : ∀ s n B, R s n B → R' s n B) (hQ : ∀ s n, Q s n → Q' s n) : MsgInv R' Q' x :=
  ⟨fun s k hk => (h.conn s k hk).mono (hR s), fun n s hm => hQ _ _ (h.queue n s hm)⟩

theorem recv_left {z : Sys N T K S} {e : Msg N T × S} (h : e ∈ z.recv.2.1) : e ∈ z.queue := by
  unfold Sys.recv at h
  split at h
  · exact h
  · split at h
    · cases h
    · rename_i q eq; rw [eq]; exact List.mem_cons_of_mem _ h

/-- The log does not get shorter, and how it grows. -/
theorem step_out {e : ClEv N T S} (hl : LegalCl c x e) (hs : x.step g c e = .ok y) :
    (∃ l, e = .sys (.loop l) ∧ x.sys.loop g c l = .ok y.sys) ∨ y.sys.srv = x.sys.srv := by
  cases e with
  | connect s t w => cases hs; exact Or.inr rfl
  | client s body => cases hs; exact Or.inr rfl
  | kill s => cases hs; exact Or.inr rfl
  | breaks s v => cases hs; exact Or.inr rfl
  | down s => cases hs; exact Or.inr rfl
  | up s =>
    cases hs
    right
    unfold Cluster.up
    split
    · rfl
    · split
      · rfl
      · dsimp only
        split <;> rfl
  | sys e =>
    simp only [Cluster.step] at hs
    split at hs
    · cases hs
    · next z hz =>
      cases hs
      cases e with
      | arrive m s => exact absurd hl id
      | close s => cases hz; exact Or.inr rfl
      | proc p => cases hz; exact Or.inr rfl
      | loop l => exact Or.inl ⟨l, rfl, hz⟩

theorem MsgInv.step {R : S → N → (BodyEnd → Prop) → Prop} {Q : S → N → Prop} (hg : g.Loose) (hi : ClInv g c x)
    (h : MsgInv R Q x)
    {e : ClEv N T S} (hl : LegalCl c x e) (hs : x.step g c e = .ok y)
    (hw : ∀ s body n, e = .client s body → WorksOn x s n → ∀ B : BodyEnd → Prop, B body → R s n B)
    (hup : ∀ s n, s ∉ x.sys.closed → R s n EndsWell → Q s n) : MsgInv R Q y := by
  constructor
  · intro s k hk
    rcases hx : x.conn s with _ | k0
    · obtain ⟨t, w, rfl⟩ := connect_of_none hs hx hk
      cases hs
      simp only [upd, if_true] at hk
      cases hk
      exact ⟨fun n hm => (by cases hm), fun n m hm => (by cases hm), fun n e hm => (by cases hm)⟩
    · obtain ⟨k1, e1, e2⟩ := eff_of_step hg hi hl hs hx
      rw [hk] at e1
      cases e1
      have h0 := h.conn s k0 hx
      cases e2 with
      | client body a1 a2 => exact h0.step body (fun n hn Q hQ => hw s body n rfl ⟨k0, hx, hn⟩ Q hQ)
      | kill a1 => exact h0.sub (fun m hm => hm) (fun n e hp => by cases hp)
      | breaks v a1 =>
        refine h0.sub ?_ (fun n e hp => hp)
        intro m hm; simpa only [underway, net_keeps_outbox] using hm
      | down v r a0 a1 =>
        refine h0.sub ?_ (fun n e hp => hp)
        intro m hm; simpa only [underway, net_keeps_outbox] using hm
      | up m m' r a0 a1 a2 =>
        refine h0.sub ?_ (fun n e hp => hp)
        intro m1 hm
        unfold underway at hm ⊢
        rw [a0, List.filterMap_cons]
        split
        · exact hm
        · exact List.mem_cons_of_mem _ hm
      | bye r a0 a1 =>
        refine h0.sub ?_ (fun n e hp => hp)
        intro m1 hm
        unfold underway at hm ⊢
        rw [a0, List.filterMap_cons]
        exact hm
      | loop l os a1 a2 a3 =>
        split
        · exact h0
        · exact h0.sub (fun m hm => hm) (fun n e hp => hp)
      | other e q a1 a2 a3 a4 => exact h0
  · intro n s hm
    cases e with
    | connect s' t w => cases hs; exact h.queue n s hm
    | client s' body => cases hs; exact h.queue n s hm
    | kill s' => cases hs; exact h.queue n s hm
    | breaks s' v => cases hs; exact h.queue n s hm
    | down s' => cases hs; exact h.queue n s hm
    | up s' =>
      cases hs
      unfold Cluster.up at hm
      split at hm
      · exact h.queue n s hm
      · next k hk =>
        split at hm
        · exact h.queue n s hm
        · next m r ho =>
          dsimp only at hm
          split at hm
          · next m' hm' =>
            rcases List.mem_append.1 hm with hm | hm
            · exact h.queue n s hm
            · cases List.mem_singleton.1 hm
              exact hup _ n hl.1 <| (h.conn _ k hk).well n (List.mem_filterMap.2 ⟨m, by rw [ho]; exact List.mem_cons_self, hm'⟩)
          · exact h.queue n s hm
    | sys e =>
      simp only [Cluster.step] at hs
      split at hs
      · cases hs
      · next z hz =>
        cases hs
        cases e with
        | arrive m s => exact absurd hl id
        | close s => cases hz; exact h.queue n _ hm
        | proc p => cases hz; exact h.queue n s hm
        | loop l =>
          obtain ⟨_, _, _, _, hq, _⟩ := loop_parts hz
          dsimp only at hm
          rw [hq] at hm
          exact h.queue n s (recv_left hm)

/-- A block is completed because of a message. -/
theorem MsgInv.completed {R : S → N → (BodyEnd → Prop) → Prop} {Q : S → N → Prop} (hg : g.Loose) (hi : ClInv g c x)
    (h : MsgInv R Q x)
    {e : ClEv N T S} (hl : LegalCl c x e) (hs : x.step g c e = .ok y) {n : N} (hn : .release n .success ∈ y.sys.srv.out) :
    .release n .success ∈ x.sys.srv.out ∨ ∃ s, holder x.sys.srv.out n = some s ∧ Q s n := by
  rcases step_out hl hs with ⟨l, rfl, hz⟩ | e1
  · obtain ⟨es', hrun⟩ := hi.run
    obtain ⟨ks, hsrun⟩ := hrun.srun
    rcases iteration_release hg (hsrun.inv hg) (goodTick_of hrun ⟨hl.1, hl.2.1⟩) (loop_iteration hz) hn with
      h1 | ⟨m, s, h1, h2, h3⟩ | ⟨h1, _⟩
    · exact Or.inl h1
    · rcases h2 with rfl | ⟨h2, _⟩
      · exact Or.inr ⟨s, h3, h.queue n s (by rw [recv_mem h1]; exact List.mem_cons_self)⟩
      · cases h2
    · cases h1
  · rw [e1] at hn
    exact Or.inl hn

end Verif
