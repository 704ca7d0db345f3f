import Verif.Proofs.ClusterInv

/-! # What the server does is a history of the server with arbitrary clients -/

set_option linter.unusedSectionVars false

namespace Verif

open Spec

variable {N T K S : Type} [DecidableEq N] [DecidableEq T] [DecidableEq K] [DecidableEq S]
  {g : DGraph N T K} {c : SysConf T} {es : List (ClEv N T S)} {x y : Cluster N T K S}

theorem legal_sys {e : SysEv N T S} (h : LegalCl c x (.sys e)) : LegalEv g c x.sys e := by
  cases e with
  | arrive m s => exact absurd h id
  | close s => exact h.1
  | proc p => trivial
  | loop k => exact ⟨h.1, h.2.1⟩

theorem step_sys {e : SysEv N T S} (h : x.step g c (.sys e) = .ok y) : x.sys.step g c e = .ok y.sys := by
  simp only [Cluster.step] at h
  split at h
  · cases h
  · next z hz => cases h; exact hz

/-- A connected client sends only proper messages. -/
theorem ConnOK.outbox {cl : S → Prop} {s : S} {k : Conn N T} {q : List (Msg N T)} {p : T → List S}
    {h : N → Option S} (hk : ConnOK g c.cfg cl s k (q ++ underway k) p h) {m : ClientMsg N T} {r : List (ClientMsg N T)}
    (ho : k.tcp.outbox = m :: r) {m' : Msg N T} (hm : Conn.toMsg k.worker m = some m') : GoodMsg g c.cfg m' :=
  hk.good m' (List.mem_append_right _ (List.mem_filterMap.2 ⟨m, by rw [ho]; exact List.mem_cons_self, hm⟩))

/-- The server and its queue and pools do what they do with arbitrary clients. -/
theorem ClRun.proj (hg : g.Loose) {Q : SysEv N T S → Prop} (hQ : ∀ m s, Q (.arrive m s)) (h : ClRun g c es x)
    (hes : ∀ e, .sys e ∈ es → Q e) : ∃ es', SysRun g c (fun _ e => Q e) es' x.sys := by
  induction h with
  | init h =>
    unfold Cluster.init at h
    split at h
    · cases h
    · next y hy => cases h; exact ⟨[], .init hy⟩
  | step e hr hl hs ih =>
    obtain ⟨es', hrun⟩ := ih (fun e he => hes e (List.mem_append_left _ he))
    cases e with
    | connect s t w => cases hs; exact ⟨es', hrun⟩
    | client s body => cases hs; exact ⟨es', hrun⟩
    | kill s => cases hs; exact ⟨es', hrun⟩
    | down s => cases hs; exact ⟨es', hrun⟩
    | breaks s e => cases hs; exact ⟨es', hrun⟩
    | up s =>
      cases hs
      unfold Cluster.up
      split
      · exact ⟨es', hrun⟩
      · next k hk =>
        split
        · exact ⟨es', hrun⟩
        · next m r ho =>
          dsimp only
          split
          · next m' hm =>
            exact ⟨_, .step (.arrive m' s) hrun ⟨hl.1, ((ClRun.inv hg hr).conn s k hk).outbox ho hm⟩ (hQ m' s) rfl⟩
          · exact ⟨es', hrun⟩
    | sys e =>
      exact ⟨_, .step e hrun (legal_sys hl) (hes e (by simp)) (step_sys hs)⟩

theorem ClRun.srun (hg : g.Loose) (h : ClRun g c es x) : ∃ ks, SRun g c.cfg ks x.sys.srv := by
  obtain ⟨_, h1⟩ := (ClRun.inv hg h).run
  exact h1.srun

end Verif
