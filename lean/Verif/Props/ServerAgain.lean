import Verif.Props.Plain
import Verif.Proofs.ServerAgain

/-! # C71 and C81 for clients that ask again -/

namespace Verif.Props

open Spec Pipeline

section
variable {N T K S : Type} [DecidableEq N] [DecidableEq T] [DecidableEq K] [DecidableEq S]
  {g : DGraph N T K} {cfg : SConf T} {σ : Nat → Server N T K S} {k : Nat → Server.Tick N T S}

/-- C71, partial: if somebody asks again whenever a block was taken back, the order in which the tasks are served
matters only for tasks that wait for other tasks. -/
theorem C71_again_partial (hg : g.OK) {trank : T → Nat} (ho : TaskOrder g trank)
    (hserved : cfg.served.Pairwise (fun a b => RootTask g a ∨ RootTask g b ∨ trank a ≤ trank b))
    (hall : ∀ n ∈ g.nodes, g.task n ∈ cfg.served) (h : Forever g cfg σ k) (hf : Fair g σ k)
    (ha : AsksAgain g σ k) (hx : ∀ i, OrphanExact g (evs (σ i).out)) :
    ∃ i, (σ i).stop = true ∧ (∀ n ∈ g.nodes, Done (evs (σ i).out) n ∨ Dead g (evs (σ i).out) n ∨
      Orphan g (evs (σ i).out) n) ∧ ∀ n, holder (σ i).out n = none := by
  obtain ⟨i, hi⟩ := h.stops_again hg ho hserved hall hf ha hx
  obtain ⟨ks, hr⟩ := h.run i
  exact ⟨i, hi, (C34_stop_means_finished_partial hg hr (hx i)).1 hi⟩

/-- C71, partial: so it does not matter at all if tasks wait only for tasks that wait for no other task. -/
theorem C71_two_stages_partial (hg : g.OK)
    (h2 : ∀ n ∈ g.nodes, ∀ u ∈ g.up n, g.task u = g.task n ∨ RootTask g (g.task u))
    (hall : ∀ n ∈ g.nodes, g.task n ∈ cfg.served) (h : Forever g cfg σ k) (hf : Fair g σ k)
    (ha : AsksAgain g σ k) (hx : ∀ i, OrphanExact g (evs (σ i).out)) :
    ∃ i, (σ i).stop = true ∧ (∀ n ∈ g.nodes, Done (evs (σ i).out) n ∨ Dead g (evs (σ i).out) n ∨
      Orphan g (evs (σ i).out) n) ∧ ∀ n, holder (σ i).out n = none := by
  classical
  refine C71_again_partial (trank := fun t => if RootTask g t then 0 else 1) hg ?_ ?_ hall h hf ha hx
  · intro n hn u hu
    rcases h2 n hn u hu with h3 | h3
    · exact Or.inl h3
    · by_cases hr : RootTask g (g.task n)
      · exact Or.inl (hr n hn rfl u hu)
      · right
        simp [h3, hr]
  · refine List.pairwise_of_forall (fun a b => ?_)
    by_cases h3 : RootTask g a
    · exact Or.inl h3
    · by_cases h4 : RootTask g b
      · exact Or.inr (Or.inl h4)
      · simp [h3, h4]

end

variable {d : Nat} {tasks r : List (Task d)} {p : Pipeline d} {S : Type} [DecidableEq S] {cfg : SConf Nat}

theorem Builds.up_task (h : PlainTasks tasks) (hb : Builds tasks r p) {b : Block d} (hbm : b ∈ p.view.nodes)
    {a : Block d} (ha : a ∈ p.view.up b) : p.view.task a = p.view.task b ∨
      ∃ t, Required tasks t ∧ t.id = p.view.task b ∧ ∃ s ∈ t.requires, s.id = p.view.task a := by
  have hbt := built_of_init hb.init (hb.unique h)
  obtain ⟨y, hy⟩ := hb.of_nodes h hbm
  have hup : p.Up a b := (edge_iff hbt.1 (hb.wf h) hy).1 ha
  have hyid : p.view.task b = y := blockOf_taskId hbt.1 (hb.wf h) hy
  obtain ⟨x, hx, hxa⟩ := up_blockOf hbt.1 (hb.wf h) hy hup
  have hxid : p.view.task a = x := blockOf_taskId hbt.1 (hb.wf h) hxa
  rw [hxid, hyid]
  rcases hx with rfl | hx
  · exact Or.inl rfl
  · right
    obtain ⟨g, _, hg, _⟩ := id hy
    obtain ⟨t, t1, t2, _, _⟩ := graphs_init hb.init hg
    rw [hbt.2, ← t2, C54_upstream r (hb.unique h) t1] at hx
    obtain ⟨u, hu, hux⟩ := hx
    exact ⟨t, (flatten_required h.unique hb.flat t).1 t1, t2, u, hu, hux⟩

theorem Builds.rootTask (h : PlainTasks tasks) (hb : Builds tasks r p) {t : Task d} (ht : Required tasks t)
    (hr : t.requires = []) : RootTask p.view t.id := by
  intro n hn hnt u hu
  rcases hb.up_task h hn hu with h1 | ⟨t', h1, h2, s, h3, _⟩
  · exact h1.trans hnt
  · have := h.unique t' t h1 ht (h2.trans hnt)
    rw [this, hr] at h3
    cases h3

/-- C81, partial: if clients ask again, the order in which the tasks are served matters only for upstream tasks
that have upstream tasks themselves. -/
theorem C81_again_partial (h : PlainTasks tasks) (hb : Builds tasks r p) (hcfg : cfg.served.Perm (r.map TTree.id))
    (ho : ∀ t, Required tasks t → ∀ s ∈ t.requires, s.requires ≠ [] →
      cfg.served.idxOf s.id < cfg.served.idxOf t.id)
    {σ : Nat → Server (Block d) Nat (Nat × Int) S} {k : Nat → Server.Tick (Block d) Nat S}
    (hF : Forever p.view cfg σ k) (hfair : Fair p.view σ k) (ha : AsksAgain p.view σ k)
    (hf : ∀ i n, .release n .failed ∉ (σ i).out) :
    ∃ i, (σ i).stop = true ∧ (∀ x b, p.BlockOf x b → Done (evs (σ i).out) b) ∧
      Server.result p.view (σ i) = true := by
  classical
  have hdead : ∀ i n, ¬ Dead p.view (evs (σ i).out) n := by
    intro i n hd
    obtain ⟨o, ho, he⟩ := List.mem_filterMap.1 hd.1
    cases o with
    | release m st => cases st <;> cases he; exact hf i n ho
    | _ => cases he
  have hnd : cfg.served.Nodup := by
    obtain ⟨r', h1, h2, _⟩ := C40_flatten tasks
    rw [hb.flat] at h1; cases h1
    exact hcfg.nodup_iff.2 h2
  have hto : TaskOrder p.view (fun t => if RootTask p.view t then 0 else cfg.served.idxOf t + 1) := by
    intro n hn u hu
    rcases hb.up_task h hn hu with h1 | ⟨t, h1, h2, s, h3, h4⟩
    · exact Or.inl h1
    · by_cases hrn : RootTask p.view (p.view.task n)
      · exact Or.inl (hrn n hn rfl u hu)
      · right
        dsimp only
        rw [if_neg hrn]
        split
        · omega
        · next hru =>
          have h5 : s.requires ≠ [] := by
            intro hc
            obtain ⟨t0, ht0, hn0⟩ := h1
            exact hru (h4 ▸ hb.rootTask h ⟨t0, ht0, hn0.tail h3⟩ hc)
          have := ho t h1 s h3 h5
          rw [h4, h2] at this
          omega
  have hpw : cfg.served.Pairwise (fun a b => RootTask p.view a ∨ RootTask p.view b ∨
      (if RootTask p.view a then 0 else cfg.served.idxOf a + 1) ≤
        (if RootTask p.view b then 0 else cfg.served.idxOf b + 1)) := by
    rw [List.pairwise_iff_getElem]
    intro i j hi hj hij
    by_cases h3 : RootTask p.view cfg.served[i]
    · exact Or.inl h3
    · by_cases h4 : RootTask p.view cfg.served[j]
      · exact Or.inr (Or.inl h4)
      · right; right
        rw [if_neg h3, if_neg h4, hnd.idxOf_getElem, hnd.idxOf_getElem]
        omega
  obtain ⟨i, h1, h2, _⟩ := C71_again_partial (hb.ok h) hto hpw
    (fun n hn => hcfg.mem_iff.2 (hb.served h _ ((hb.ok h).task_mem n hn))) hF hfair ha
    (fun i => exact_of_one (fun n _ f f' hf _ _ _ => absurd hf (hdead i f)))
  have hd : ∀ n ∈ p.view.nodes, Done (evs (σ i).out) n := by
    intro n hn
    rcases h2 n hn with h3 | h3 | ⟨f, h3, _⟩
    · exact h3
    · exact absurd h3 (hdead i n)
    · exact absurd h3 (hdead i f)
  obtain ⟨ks, hr⟩ := hF.run i
  exact ⟨i, h1, fun x b hx => hd b (hb.mem_nodes h hx), C41_all_done (hb.ok h) hr hd⟩

/-- C81, partial: a pipeline with at most two stages always stops, for `run_blockwise` as it is. -/
theorem C81_two_stages_partial (h : PlainTasks tasks) (hb : Builds tasks r p) (hcfg : cfg.served = r.map TTree.id)
    (h2 : ∀ t, Required tasks t → ∀ s ∈ t.requires, s.requires = [])
    {σ : Nat → Server (Block d) Nat (Nat × Int) S} {k : Nat → Server.Tick (Block d) Nat S}
    (hF : Forever p.view cfg σ k) (hfair : Fair p.view σ k) (ha : AsksAgain p.view σ k)
    (hf : ∀ i n, .release n .failed ∉ (σ i).out) :
    ∃ i, (σ i).stop = true ∧ (∀ x b, p.BlockOf x b → Done (evs (σ i).out) b) ∧
      Server.result p.view (σ i) = true :=
  C81_again_partial h hb (by rw [hcfg]) (fun t ht s hs hc => absurd (h2 t ht s hs) hc) hF hfair ha hf

end Verif.Props
