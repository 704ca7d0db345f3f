import Verif.Proofs.ClusterAsk
import Verif.Props.ClusterPlain
import Verif.Props.ServerAgain
import Verif.Spec.ClusterPath

/-! # C87: the server and its workers come to an end

The conditions of C71 and C81 are conditions on the messages that the server gets.  Here they are derived from what
processes, network and operating system do. -/

namespace Verif.Props

open Verif Spec Pipeline

section
variable {N T K S : Type} [DecidableEq N] [DecidableEq T] [DecidableEq K] [DecidableEq S]
  {g : DGraph N T K} {c : SysConf T} {x : Nat → Cluster N T K S} {e : Nat → ClEv N T S}

/-- C87, partial: if processes go on, messages arrive, the end of a connection is noticed and clients that fail are
replaced, the server is treated fairly: every block comes back, and whoever gives a block back asks again. -/
theorem C87_fair_partial (hg : g.Loose) (h : ClForever g c x e) (hf : ClFair g x e)
    (hx : ∀ i, OrphanExact g (evs (x i).sys.srv.out)) {pk : Nat → Finset N → N} (hp : LegalPick pk) :
    Forever g c.cfg (fun i => (x i).sys.srv) (fun i => tickAt pk (x i) (e i)) ∧
    Fair g (fun i => (x i).sys.srv) (fun i => tickAt pk (x i) (e i)) ∧
    AsksAgain g (fun i => (x i).sys.srv) (fun i => tickAt pk (x i) (e i)) :=
  ⟨h.forever hg hp, h.fair hg hf hp hx, h.again hg hf hp⟩

/-- There is a way to choose elements of sets, or the server has stopped. -/
theorem stop_or_pick (h : ClForever g c x e) (hf : ClLive g x e) :
    (∃ i, (x i).sys.srv.stop = true) ∨ ∃ pk : Nat → Finset N → N, LegalPick pk := by
  obtain ⟨j, _, h1 | ⟨l, h1, _⟩⟩ := hf.idle 0
  · exact Or.inl ⟨j, h1⟩
  · cases hs : (x j).sys.srv.stop with
    | true => exact Or.inl ⟨j, hs⟩
    | false =>
      have hl := h.legal j hs
      rw [h1] at hl
      exact Or.inr ⟨_, hl.2.1.1⟩

/-- C87, partial: then the server stops, provided that tasks that wait for other tasks are served in a good order;
all blocks have completed, have failed for good or are downstream of such a block, and nobody has a block. -/
theorem C87_stops_partial (hg : g.OK) {trank : T → Nat} (ho : TaskOrder g trank)
    (hserved : c.cfg.served.Pairwise (fun a b => RootTask g a ∨ RootTask g b ∨ trank a ≤ trank b))
    (hall : ∀ n ∈ g.nodes, g.task n ∈ c.cfg.served) (h : ClForever g c x e) (hf : ClFair g x e)
    (hx : ∀ i, OrphanExact g (evs (x i).sys.srv.out)) :
    ∃ i, (x i).sys.srv.stop = true ∧ (∀ n ∈ g.nodes, Done (evs (x i).sys.srv.out) n ∨
      Dead g (evs (x i).sys.srv.out) n ∨ Orphan g (evs (x i).sys.srv.out) n) ∧
      ∀ n, holder (x i).sys.srv.out n = none := by
  rcases stop_or_pick h hf.toClLive with ⟨i, hi⟩ | ⟨pk, hp⟩
  · obtain ⟨es, hr⟩ := h.run i
    obtain ⟨ks, hsr⟩ := ClRun.srun hg hr
    exact ⟨i, hi, (C34_stop_means_finished_partial hg hsr (hx i)).1 hi⟩
  · obtain ⟨h1, h2, h3⟩ := C87_fair_partial hg h hf hx hp
    exact C71_again_partial hg ho hserved hall h1 h2 h3 hx

/-- C87, partial: so it always stops if tasks wait only for tasks that wait for no other task. -/
theorem C87_two_stages_partial (hg : g.OK)
    (h2 : ∀ n ∈ g.nodes, ∀ u ∈ g.up n, g.task u = g.task n ∨ RootTask g (g.task u))
    (hall : ∀ n ∈ g.nodes, g.task n ∈ c.cfg.served) (h : ClForever g c x e) (hf : ClFair g x e)
    (hx : ∀ i, OrphanExact g (evs (x i).sys.srv.out)) :
    ∃ i, (x i).sys.srv.stop = true ∧ (∀ n ∈ g.nodes, Done (evs (x i).sys.srv.out) n ∨
      Dead g (evs (x i).sys.srv.out) n ∨ Orphan g (evs (x i).sys.srv.out) n) ∧
      ∀ n, holder (x i).sys.srv.out n = none := by
  rcases stop_or_pick h hf.toClLive with ⟨i, hi⟩ | ⟨pk, hp⟩
  · obtain ⟨es, hr⟩ := h.run i
    obtain ⟨ks, hsr⟩ := ClRun.srun hg hr
    exact ⟨i, hi, (C34_stop_means_finished_partial hg hsr (hx i)).1 hi⟩
  · obtain ⟨h3, h4, h5⟩ := C87_fair_partial hg h hf hx hp
    exact C71_two_stages_partial hg h2 hall h3 h4 h5 hx

/-- If no client fails and the process functions do their work, no block fails. -/
theorem no_failures (hg : g.Loose) (h : ClForever g c x e) (hr : AllReliable x e) (hw : WorksWell x e) (i : Nat) (n : N) :
    .release n .failed ∉ (x i).sys.srv.out := by
  intro hn
  obtain ⟨es, h1, h2⟩ := h.ran (i := i)
  rcases C85_failed hg h1 (List.mem_filterMap.2 ⟨_, hn, rfl⟩) with h3 | ⟨s, h3, _⟩
  · obtain ⟨j, s, body, h4, h5, h6, h7⟩ := h2 n _ h3
    exact h7 (hw j s n body h4 h5 h6)
  · rw [h.none_closed hg hr] at h3
    cases h3

end

variable {d : Nat} {tasks r : List (Task d)} {p : Pipeline d} {S : Type} [DecidableEq S] {c : SysConf Nat}
  {x : Nat → Cluster (Block d) Nat (Nat × Int) S} {e : Nat → ClEv (Block d) Nat S}

/-- C87, partial: a plain pipeline with at most two stages whose workers do not fail always comes to an end; all its
blocks have completed then and the result is `True`. -/
theorem C87_plain_partial (h : PlainTasks tasks) (hb : Builds tasks r p) (hcfg : c.cfg.served = r.map TTree.id)
    (h2 : ∀ t, Required tasks t → ∀ s ∈ t.requires, s.requires = []) (hF : ClForever p.view c x e)
    (hl : ClLive p.view x e) (hr : AllReliable x e) (hw : WorksWell x e) :
    ∃ i, (x i).sys.srv.stop = true ∧ (∀ y b, p.BlockOf y b → Done (evs (x i).sys.srv.out) b) ∧
      Server.result p.view (x i).sys.srv = true := by
  have hok := hb.ok h
  have hnf := no_failures hok hF hr hw
  have hdead : ∀ i n, ¬ Dead p.view (evs (x i).sys.srv.out) n := by
    intro i n hd
    obtain ⟨o, ho, he⟩ := List.mem_filterMap.1 hd.1
    cases o with
    | release m st => cases st <;> cases he; exact hnf i n ho
    | _ => cases he
  have hx : ∀ i, OrphanExact p.view (evs (x i).sys.srv.out) :=
    fun i => exact_of_one (fun n _ f f' hf _ _ _ => absurd hf (hdead i f))
  rcases stop_or_pick hF hl with ⟨i, hi⟩ | ⟨pk, hp⟩
  · obtain ⟨es, hrun⟩ := hF.run i
    obtain ⟨ks, hsr⟩ := ClRun.srun hok hrun
    have hd : ∀ n ∈ p.view.nodes, Done (evs (x i).sys.srv.out) n := by
      intro n hn
      rcases ((C34_stop_means_finished_partial hok hsr (hx i)).1 hi).1 n hn with h3 | h3 | ⟨f, h3, _⟩
      · exact h3
      · exact absurd h3 (hdead i n)
      · exact absurd h3 (hdead i f)
    exact ⟨i, hi, fun y b hy => hd b (hb.mem_nodes h hy), C41_all_done hok hsr hd⟩
  · obtain ⟨h3, h4, h5⟩ := C87_fair_partial hok hF (hF.fair_of_live hok hr hl hp) hx hp
    exact C81_two_stages_partial h hb hcfg h2 h3 h4 h5 hnf

/-- C87, partial: then every voxel that a task should write lies in exactly one block of the task, and that block was
accepted by its check function, or a process was in the process function with it and finished its work. -/
theorem C87_voxels_partial (h : PlainTasks tasks) (hb : Builds tasks r p) (hcfg : c.cfg.served = r.map TTree.id)
    (h2 : ∀ t, Required tasks t → ∀ s ∈ t.requires, s.requires = []) (hF : ClForever p.view c x e)
    (hl : ClLive p.view x e) (hr : AllReliable x e) (hw : WorksWell x e) {t : Task d} (ht : Required tasks t)
    (hcov : t.info.fit ≠ .valid ∨ t.info.Divides) :
    ∀ v, InRoi v t.info.writes → ∃! b, (p.BlockOf t.id b ∧ InRoi v b.writeRoi) ∧ ((∃ i, .skip b ∈ (x i).sys.srv.out) ∨
      ∃ i s body, e i = .client s body ∧ WorksOn (x i) s b ∧ EndsWell body) := by
  intro v hv
  have hok := hb.ok h
  obtain ⟨i, h3, _, _⟩ := C87_plain_partial h hb hcfg h2 hF hl hr hw
  obtain ⟨es, h4, h5⟩ := hF.ran (i := i)
  have hnf := no_failures hok hF hr hw i
  have hdead : ∀ n, ¬ Dead p.view (evs (x i).sys.srv.out) n := by
    intro n hd
    obtain ⟨o, ho, he⟩ := List.mem_filterMap.1 hd.1
    cases o with
    | release m st => cases st <;> cases he; exact hnf n ho
    | _ => cases he
  obtain ⟨_, h6⟩ := C86_voxels h hb h4 h3 hdead
  obtain ⟨b, ⟨h7, h8⟩, h9⟩ := h6 t ht hcov v hv
  refine ⟨b, ⟨h7, ?_⟩, ?_⟩
  · rcases h8 with h8 | h8
    · exact Or.inl ⟨i, h8⟩
    · obtain ⟨j, s, body, _, g1, g2, g3⟩ := h5 b _ h8
      exact Or.inr ⟨j, s, body, g1, g2, g3⟩
  · rintro b' ⟨g1, _⟩
    obtain ⟨b1, g2, g3⟩ := hb.cover h ht hcov hv
    rw [g3 b' g1, g3 b h7]

end Verif.Props

namespace Verif

open Spec Pipeline Props

namespace Ex

/-- Client 7 gets the block and is terminated; client 8 comes and processes the block. -/
def replace : List (SimpleCl (Fin 1) (Fin 1) Nat) :=
  [.connect 7 0] ++ fetch 7 ++ [.kill 7, .close 7, .loop, .connect 8 0] ++ fetch 8 ++ giveBack 8

/-- The last two stages, with one worker each. -/
def twoJobs : List (SimpleCl (Block 1) Nat Nat) :=
  [.connect 11 1, .connect 12 2] ++ stageJob 12 ++ stageJob 12 ++ stageJob 11 ++ stageJob 11

end Ex

open Ex

/-- The hypotheses of `C87_fair_partial`, `C87_stops_partial` and `C87_two_stages_partial`. -/
example : ∃ (x : Nat → Cluster (Fin 1) (Fin 1) (Fin 1) Nat) (e : Nat → ClEv (Fin 1) (Fin 1) Nat), Ex.single.OK ∧
    ClForever Ex.single Ex.lineConf x e ∧ ClFair Ex.single x e ∧
    (∀ i, OrphanExact Ex.single (evs (x i).sys.srv.out)) ∧ (∃ i, .bad 0 ∈ evs (x i).sys.srv.out) ∧
    (∀ n ∈ Ex.single.nodes, Ex.single.task n ∈ Ex.lineConf.cfg.served) ∧
    ∀ n ∈ Ex.single.nodes, ∀ u ∈ Ex.single.up n, Ex.single.task u = Ex.single.task n ∨
      RootTask Ex.single (Ex.single.task u) := by
  have hx : (clPath Ex.single Ex.lineConf (Ex.replace.map (SimpleCl.ev pickMin))).map (fun x =>
      decide (x.sys.srv.stop = true ∧ .bad 0 ∈ evs x.sys.srv.out)) = some true := by decide +kernel
  obtain ⟨x, e, h1, h2, h3, h4⟩ := clPath_forever (.kill 7) (simpleCl_legal pickMin_legal _) hx
    (fun y hy => (of_decide_eq_true hy).1)
  obtain ⟨i, hi⟩ := h2
  refine ⟨x, e, Ex.single_ok, h1, h3, fun i => exact_of_one ?_, ⟨i, (of_decide_eq_true hi).2⟩, by decide, ?_⟩
  · intro n _ f f' _ _ h5
    have h6 : ∀ a b, ¬ Edge Ex.single a b := by simp only [Edge]; decide
    cases h5 with
    | single h5 => exact absurd h5 (h6 _ _)
    | tail _ h5 => exact absurd h5 (h6 _ _)
  · intro n _ u hu
    exact absurd hu (by revert u n; decide)

/-- The hypotheses of `C87_plain_partial` and `C87_voxels_partial`: two stages with one worker each. -/
example : ∃ tasks r p c, ∃ (x : Nat → Cluster (Block 1) Nat (Nat × Int) Nat) (e : Nat → ClEv (Block 1) Nat Nat),
    PlainTasks tasks ∧ Builds tasks r p ∧ c.cfg.served = r.map TTree.id ∧
    (∀ t, Required tasks t → ∀ s ∈ t.requires, s.requires = []) ∧ ClForever p.view c x e ∧ ClLive p.view x e ∧
    AllReliable x e ∧ WorksWell x e ∧ ∃ i, (x i).sys.srv.stop = true := by
  have hx : (clPath twoView ⟨twoConf, fun _ => 1, 3⟩ (twoJobs.map (SimpleCl.ev (anyPick (stageBlk 1 0))))).map (fun x => x.sys.srv.stop) =
      some true := by decide +kernel
  obtain ⟨x, e, h1, h2, h3, h4⟩ := clPath_forever (.kill 7) (simpleCl_legal (anyPick_legal _) _) hx (fun y hy => hy)
  have hev : ∀ i, (x i).sys.srv.stop = false → (∃ s t, e i = .connect s t 0) ∨ (∃ s, e i = .client s ⟨.enum .processing, none⟩) ∨
      (∃ s, e i = .up s) ∨ (∃ s, e i = .down s) ∨ e i = .sys (.loop (envOf (anyPick (stageBlk 1 0)))) := by
    intro i hi
    obtain ⟨a, ha, he⟩ := List.mem_map.mp (h4 i hi)
    have h5 : twoJobs.all (fun | .kill _ | .close _ | .fail _ | .interrupt _ | .breaks _ => false | _ => true) = true := by decide
    have h6 := List.all_eq_true.mp h5 a ha
    rw [← he]
    cases a with
    | kill _ => cases h6
    | close _ => cases h6
    | fail _ => cases h6
    | interrupt _ => cases h6
    | breaks _ => cases h6
    | connect s t => exact Or.inl ⟨s, t, rfl⟩
    | client s => exact Or.inr (Or.inl ⟨s, rfl⟩)
    | up s => exact Or.inr (Or.inr (Or.inl ⟨s, rfl⟩))
    | down s => exact Or.inr (Or.inr (Or.inr (Or.inl ⟨s, rfl⟩)))
    | loop => exact Or.inr (Or.inr (Or.inr (Or.inr rfl)))
  refine ⟨[stage1], [stage1, stage2], pipe [stage1, stage2], _, x, e, two_plain, two_builds, rfl, ?_, h1, h3.toClLive,
    ?_, ?_, h2⟩
  · intro t ht
    have := required_mem (L := [stage2, stage1]) (by simp) (by simp [stage2, stage1, task1, TTree.requires]) ht
    simp only [List.mem_cons, List.not_mem_nil, or_false] at this
    rcases this with rfl | rfl <;> simp [stage2, stage1, task1, TTree.requires]
  · intro _ s _ _ _ _ i hi hF
    rcases hev i hi with ⟨_, _, h⟩ | ⟨_, h⟩ | ⟨_, h⟩ | ⟨_, h⟩ | h <;> rw [h] at hF
    · exact hF
    · obtain ⟨_, _, e, h5, _⟩ := hF
      cases h5
    · exact hF
    · exact hF
    · cases hF
  · intro i s n body hi hE _
    rcases hev i hi with ⟨_, _, h⟩ | ⟨_, h⟩ | ⟨_, h⟩ | ⟨_, h⟩ | h <;> rw [h] at hE <;> cases hE
    exact Or.inl ⟨rfl, Or.inl rfl⟩

end Verif
