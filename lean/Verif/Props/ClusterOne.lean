import Verif.Proofs.ClusterOne
import Verif.Props.Cluster

/-! # A client has one block at a time: C99 -/

namespace Verif

open Spec

variable {N T K S : Type} [DecidableEq N] [DecidableEq T] [DecidableEq K] [DecidableEq S]
  {g : DGraph N T K} {c : SysConf T} {es : List (ClEv N T S)} {x : Cluster N T K S}

/-- C99: the server never has two blocks on record with the same client, whatever happens to processes and
connections. -/
theorem C99_one_block (hg : g.Loose) (h : ClRun g c es x) {s : S} {n m : N} (hn : holder x.sys.srv.out n = some s)
    (hm : holder x.sys.srv.out m = some s) : n = m := by
  rcases hk : x.conn s with _ | k
  · exact absurd hn (((ClRun.inv hg h).fresh s hk).2.2 n)
  · exact (ClRun.oneInv hg h s k hk).one n m hn hm

/-- C99: the number of blocks of a task that are being processed, as `TaskState` counts them, is at most the number of
clients of the task. -/
theorem C99_parallel (hg : g.OK) (h : ClRun g c es x) (t : T) {cs : List S}
    (hcs : ∀ s k, x.conn s = some k → k.task = t → s ∈ cs) :
    (x.sys.srv.sched.states t).processing ≤ (cs.length : Int) := by
  obtain ⟨ks, hsr⟩ := ClRun.srun hg h
  have hi := hsr.inv hg
  rw [(C19_counters_partial hg hi.run t).2.1]
  classical
  let l := (g.nodes.filter (fun n => decide (g.task n = t ∧ Held (evs x.sys.srv.out) n)))
  have hl : l.Nodup := (hg.nodes_nodup).filter _
  have hheld : ∀ n ∈ l, ∃ s, holder x.sys.srv.out n = some s ∧ s ∈ cs := by
    intro n hn
    obtain ⟨_, h2⟩ := List.mem_filter.1 hn
    obtain ⟨h3, h4⟩ := of_decide_eq_true h2
    obtain ⟨s, hs⟩ := Option.ne_none_iff_exists'.1 ((hi.held n).1 h4)
    refine ⟨s, hs, ?_⟩
    rcases hk : x.conn s with _ | k
    · exact absurd hs (((ClRun.inv hg h).fresh s hk).2.2 n)
    · exact hcs s k hk ((ClRun.heldTask hg h s k n hk hs).symm.trans h3)
  have hsub : l.map (fun n => holder x.sys.srv.out n) ⊆ cs.map some := by
    intro o ho
    obtain ⟨n, hn, rfl⟩ := List.mem_map.1 ho
    obtain ⟨s, h1, h2⟩ := hheld n hn
    exact List.mem_map.2 ⟨s, h2, h1.symm⟩
  have hnd : (l.map (fun n => holder x.sys.srv.out n)).Nodup := by
    refine (List.nodup_map_iff_inj_on hl).2 ?_
    intro a ha b _ e
    obtain ⟨s, h1, _⟩ := hheld a ha
    exact C99_one_block hg h h1 (e ▸ h1)
  have := (hnd.subperm hsub).length_le
  rw [List.length_map, List.length_map] at this
  have e : cnt g t (Held (evs x.sys.srv.out)) = l.length := by
    unfold cnt
    rw [List.countP_eq_length_filter]
    congr 2
    refine List.filter_congr (fun n _ => ?_)
    congr
  omega

/-- C99 needs that clients use `Client.acquire_block`: the server gives a client that asks twice two blocks. -/
theorem C99_server_alone : ∃ (g : DGraph (Fin 2) (Fin 1) (Fin 2)) (cfg : SConf (Fin 1))
    (ks : List (Server.Tick (Fin 2) (Fin 1) Nat)) (σ : Server (Fin 2) (Fin 1) (Fin 2) Nat), g.OK ∧ SRun g cfg ks σ ∧
    holder σ.out 0 = some 7 ∧ holder σ.out 1 = some 7 := by
  have hx : (sexec (finGraph 2 1 (fun _ => []) (fun _ => 0) (fun _ => 0) [0]) ⟨[0], fun _ => none⟩
      (ticks [acq 0 7, acq 0 7])).map (fun σ => decide (holder σ.out 0 = some 7 ∧ holder σ.out 1 = some 7)) =
      some true := by decide +kernel
  obtain ⟨σ, h, e⟩ := sexec_run (S := Nat) (ticks_legal _) _ hx
  obtain ⟨e1, e2⟩ := of_decide_eq_true e
  exact ⟨_, _, _, σ, finGraph_ok (by decide) (by decide) (by decide) (by decide), h, e1, e2⟩

namespace Ex

/-- Two independent blocks. -/
def pair : DGraph (Fin 2) (Fin 1) (Fin 2) := finGraph 2 1 (fun _ => []) (fun _ => 0) (fun _ => 1) [0]

theorem pair_ok : pair.OK := finGraph_ok (by decide) (by decide) (by decide) (by decide)

/-- Both clients have a block, one of them died and the server does not know yet. -/
example : ∃ (es : List (ClEv (Fin 2) (Fin 1) Nat)) (x : Cluster (Fin 2) (Fin 1) (Fin 2) Nat),
    ClRun pair lineConf es x ∧ holder x.sys.srv.out 0 = some 7 ∧ holder x.sys.srv.out 1 = some 8 ∧
    (x.sys.srv.sched.states 0).processing = 2 ∧ (x.conn 7).map (·.phase) = some .killed ∧
    ∀ s k, x.conn s = some k → k.task = 0 → s ∈ [7, 8] := by
  have hx : (clRun pair ([.connect 7 0, .connect 8 0] ++ fetch 7 ++ fetch 8 ++ [.kill 7])).map (fun x =>
      decide (holder x.sys.srv.out 0 = some 7 ∧ holder x.sys.srv.out 1 = some 8 ∧
        (x.sys.srv.sched.states 0).processing = 2 ∧ (x.conn 7).map (·.phase) = some .killed)) = some true := by
    decide +kernel
  obtain ⟨x, h, e⟩ := clRun_run _ hx
  obtain ⟨e1, e2, e3, e4⟩ := of_decide_eq_true e
  refine ⟨_, x, h, e1, e2, e3, e4, ?_⟩
  intro s k hk _
  obtain ⟨t, w, hm⟩ := ClRun.connected h hk
  obtain ⟨a, ha, e⟩ := List.mem_map.1 hm
  cases a with
  | connect s' t' =>
    cases e
    simp only [fetch, List.mem_append, List.mem_cons, List.not_mem_nil] at ha
    simp at ha
    rcases ha with ⟨rfl, _⟩ | ⟨rfl, _⟩ <;> simp
  | _ => cases e

end Ex
end Verif
