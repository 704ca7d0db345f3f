import Verif.Proofs.Data
import Verif.Props.Plain

/-! # C108: the data do not depend on the schedule

Any execution — any number of workers whose process functions read and write location by location at the same
time, failures and retries, blocks that check functions accept — leaves the same data behind as processing the
blocks one after the other. -/

namespace Verif.Spec

variable {d : Nat}

/-- What a block may store: voxels of its write ROI in the output of its task.  (A location is a task id, or any
other number for data that no task produces, and a voxel.) -/
def MayStore (b : Block d) (l : Nat × Coord d) : Prop := l.1 = b.taskId ∧ InRoi l.2 b.writeRoi

/-- What a block may look at, apart from what it stores: its read ROI in the outputs of the upstream tasks; its
read ROI in the output of its own task if `read_write_conflict` is set; everything that is not the output of a
task. -/
def MayRead (tasks : List (Task d)) (b : Block d) (l : Nat × Coord d) : Prop :=
  (∃ t, Required tasks t ∧ t.id = b.taskId ∧ (∃ u ∈ t.requires, l.1 = u.id) ∧ InRoi l.2 b.readRoi) ∨
  (∃ t, Required tasks t ∧ t.id = b.taskId ∧ t.info.conflict = true ∧ l.1 = t.id ∧ InRoi l.2 b.readRoi) ∨
  ∀ t, Required tasks t → l.1 ≠ t.id

/-- The process functions keep to their ROIs. -/
def KeepToRois {V : Type} (tasks : List (Task d)) (p : Pipeline d) (P : Block d → Prog (Nat × Coord d) V) : Prop :=
  ∀ x b, p.BlockOf x b → (P b).Uses (MayRead tasks b) (MayStore b)

end Verif.Spec

namespace Verif.Props

open Verif Spec Pipeline

section
variable {N T K L V : Type} [DecidableEq N] [DecidableEq T] [DecidableEq K] [DecidableEq L] {g : DGraph N T K}
  {R W : N → L → Prop} {P : N → Prog L V} {D₀ D : L → V} {order : List N} {tr : List (Ev N)} {st : Sched N T K}
  {cur : N → Prog L V}

/-- C108 for dependency graphs: where completed blocks store, the data are as if all blocks had been processed one
after the other; where no block that was handed out stores, nothing has changed. -/
theorem C108_graph (hg : g.Loose) (hd : Disciplined g R W P) (ho : Topological g order)
    (h : DataRun g P D₀ tr st D cur) (hR : ∀ n, .bad n ∈ tr → Restartable (W n) (P n)) :
    (∀ n ∈ g.nodes, Done tr n → ∀ l, W n l → D l = oneByOne P order D₀ l) ∧
    (∀ l, (∀ n ∈ g.nodes, .hand n ∈ tr → ¬ W n l) → D l = D₀ l) ∧
    ((∀ n ∈ g.nodes, Done tr n) → D = oneByOne P order D₀) := by
  have hi := h.inv hg hd ho hR
  refine ⟨hi.done, fun l hl => ?_, fun hall => ?_⟩
  · by_cases hw : ∃ n ∈ g.nodes, W n l
    · obtain ⟨n, hn, hnl⟩ := hw
      exact hi.fresh n hn (fun hh => hl n hn hh hnl) l hnl
    · exact hi.off l (fun n hn hnl => hw ⟨n, hn, hnl⟩)
  · funext l
    by_cases hw : ∃ n ∈ g.nodes, W n l
    · obtain ⟨n, hn, hnl⟩ := hw
      exact hi.done n hn (hall n hn) l hnl
    · rw [hi.off l (fun n hn hnl => hw ⟨n, hn, hnl⟩)]
      exact (oneByOne_frame (R := R) (W := W) (fun m hm => hd.uses m ((ho.mem m).1 hm))
        (fun m hm hml => hw ⟨m, (ho.mem m).1 hm, hml⟩) _).symm

/-- C108: two executions from the same data agree wherever blocks store that have completed in both. -/
theorem C108_deterministic (hg : g.Loose) (hd : Disciplined g R W P) {tr' : List (Ev N)} {st' : Sched N T K} {D' : L → V}
    {cur' : N → Prog L V} (h : DataRun g P D₀ tr st D cur) (h' : DataRun g P D₀ tr' st' D' cur')
    (hR : ∀ n, .bad n ∈ tr ∨ .bad n ∈ tr' → Restartable (W n) (P n)) :
    (∀ n ∈ g.nodes, Done tr n → Done tr' n → ∀ l, W n l → D l = D' l) ∧
    ((∀ n ∈ g.nodes, Done tr n ∧ Done tr' n) → D = D') := by
  obtain ⟨order, ho⟩ := exists_topological hg
  obtain ⟨a1, _, a3⟩ := C108_graph hg hd ho h (fun n hn => hR n (Or.inl hn))
  obtain ⟨b1, _, b3⟩ := C108_graph hg hd ho h' (fun n hn => hR n (Or.inr hn))
  exact ⟨fun n hn h1 h2 l hl => (a1 n hn h1 l hl).trans (b1 n hn h2 l hl).symm,
    fun hall => (a3 fun n hn => (hall n hn).1).trans (b3 fun n hn => (hall n hn).2).symm⟩

omit [DecidableEq N] [DecidableEq T] [DecidableEq K] in
/-- C108, resuming: if no block looks at what a later block stores and all process functions can be started again,
then what an earlier run has left behind in the outputs does not matter. -/
theorem C108_resume (hg : g.Loose) (hd : Disciplined g R W P) (ho : Topological g order)
    (hR : ∀ n ∈ g.nodes, Restartable (W n) (P n))
    (hfirst : ∀ a ∈ g.nodes, ∀ b ∈ g.nodes, ∀ l, W a l → R b l → a ≠ b → Anc g a b)
    {D₁ D₂ : L → V} (h : ∀ l, (∀ n ∈ g.nodes, ¬ W n l) → D₁ l = D₂ l) :
    oneByOne P order D₁ = oneByOne P order D₂ := by
  have key : ∀ post pre : List N, order = pre ++ post → ∀ l, (∀ n ∈ post, ¬ W n l) →
      oneByOne P pre D₁ l = oneByOne P pre D₂ l := by
    intro post pre
    induction pre using List.reverseRecOn generalizing post with
    | nil =>
      intro e l hl
      exact h l (fun n hn => hl n (by rw [← ho.mem, e] at hn; simpa using hn))
    | append_singleton pre n ih =>
      intro e l hl
      have e' : order = pre ++ n :: post := by rw [e]; simp
      have hn := ho.mem_split e' (a := n) (by simp)
      have hi := ih (n :: post) e'
      have hreads : ∀ x, R n x → ¬ W n x → oneByOne P pre D₁ x = oneByOne P pre D₂ x := by
        intro x hx hnx
        refine hi x (fun a ha hax => ?_)
        have han := ho.mem_split e' (Or.inr (List.mem_cons.1 ha))
        have hne : a ≠ n := fun e => hnx (e ▸ hax)
        have hb := ho.before hg (hfirst a han n hn x hax hx hne) hn e'
        have hnd := ho.nodup
        rw [e'] at hnd
        exact (List.nodup_append.1 hnd).2.2 a hb a ha rfl
      rw [oneByOne_append, oneByOne_append]
      change (P n).run _ l = (P n).run _ l
      by_cases hw : W n l
      · classical
        rw [hR n hn (oneByOne P pre D₁) (fun x => if W n x then oneByOne P pre D₂ x else oneByOne P pre D₁ x)
          (fun x hx => (if_neg hx).symm) l hw]
        refine Prog.run_congr (hd.uses n hn) (fun x hx => ?_) l (Or.inr hw)
        by_cases hwx : W n x
        · exact if_pos hwx
        · rw [if_neg hwx]
          exact hreads x (hx.resolve_right hwx) hwx
      · rw [Prog.run_frame (hd.uses n hn) _ hw, Prog.run_frame (hd.uses n hn) _ hw]
        exact hi l (fun a ha => (List.mem_cons.1 ha).elim (fun e => e ▸ hw) (hl a))
  funext l
  exact key [] order (by simp) l (by simp)

/-- The blocks that were released with SUCCESS, in order. -/
def goods (tr : List (Ev N)) : List N := tr.filterMap (fun e => match e with | .good n => some n | _ => none)

/-- Every execution in which no check function accepts a block is possible with data: each program may run at one
go at the end. -/
theorem C108_possible (hg : g.OK) (P : N → Prog L V) (D₀ : L → V) (h : Run g tr st) :
    (∀ n, .skip n ∉ tr) → ∃ cur, DataRun g P D₀ tr st (oneByOne P (goods tr) D₀) cur ∧ ∀ n, Held tr n → cur n = P n := by
  induction h with
  | init => exact fun _ => ⟨P, .init, fun _ _ => rfl⟩
  | @acquire tr st st' skips r chk t hr hacq ih =>
    intro hs
    obtain ⟨cur, h1, h2⟩ := ih (fun n hn => hs n (List.mem_append_left _ hn))
    have hsk : skips = [] := by
      cases skips with
      | nil => rfl
      | cons n ns => exact absurd (by simp [acquireEvents]) (hs n)
    subst hsk
    have eg : goods (tr ++ acquireEvents [] r) = goods tr := by cases r <;> simp [goods, acquireEvents]
    refine ⟨_, eg ▸ DataRun.acquire chk t h1 hacq (by simp), fun n hn => ?_⟩
    by_cases e : r = some n
    · exact if_pos e
    · rw [if_neg e]
      refine h2 n ?_
      cases r with
      | none => simpa [acquireEvents] using hn
      | some m =>
        have e' : m ≠ n := fun h => e (h ▸ rfl)
        simpa [acquireEvents, Held, e'] using hn
  | @good tr st st' n pick hr hh hp hrel ih =>
    intro hs
    obtain ⟨cur, h1, h2⟩ := ih (fun m hm => hs m (List.mem_append_left _ hm))
    have h3 := DataRun.finish hh _ h1 (h2 n hh)
    have eg : oneByOne P (goods (tr ++ [.good n])) D₀ = (P n).run (oneByOne P (goods tr) D₀) := by
      have : goods (tr ++ [.good n]) = goods tr ++ [n] := by simp [goods]
      rw [this, oneByOne_append]
      rfl
    refine ⟨_, eg ▸ DataRun.good pick h3 hh hp (if_pos rfl) hrel, fun m hm => ?_⟩
    have hne : m ≠ n := by
      rintro rfl
      exact ((C19_disjoint_partial hg (Run.good pick hr hh hp hrel) m).2.1 hm).1 (Or.inl (by simp))
    exact (if_neg hne).trans (h2 m (by simpa [Held, hne.symm] using hm))
  | @bad tr st st' n pick hr hh hp hrel ih =>
    intro hs
    obtain ⟨cur, h1, h2⟩ := ih (fun m hm => hs m (List.mem_append_left _ hm))
    have eg : goods (tr ++ [.bad n]) = goods tr := by simp [goods]
    refine ⟨_, eg ▸ DataRun.bad pick h1 hh hp hrel, fun m hm => h2 m ?_⟩
    unfold Held at hm ⊢
    have e1 : (tr ++ [Ev.bad n]).count (.hand m) = tr.count (.hand m) := by simp
    have e2 : tr.count (.good m) ≤ (tr ++ [Ev.bad n]).count (.good m) := by simp
    have e3 : tr.count (.bad m) ≤ (tr ++ [Ev.bad n]).count (.bad m) := by simp
    omega

end

variable {d : Nat} {tasks r : List (Task d)} {p : Pipeline d} {V : Type} {P : Block d → Prog (Nat × Coord d) V}

/-- Process functions that keep to their ROIs are disciplined. -/
theorem _root_.Verif.Spec.KeepToRois.disciplined (hP : KeepToRois tasks p P) (h : PlainTasks tasks) (hb : Builds tasks r p) :
    Disciplined p.view (MayRead tasks) MayStore P := by
  have hbt := built_of_init hb.init (hb.unique h)
  have hof : ∀ a ∈ p.view.nodes, ∃ t, Required tasks t ∧ t.id = a.taskId ∧ p.BlockOf t.id a := by
    intro a ha
    obtain ⟨x, hx⟩ := hb.of_nodes h ha
    have e := blockOf_taskId hbt.1 (hb.wf h) hx
    obtain ⟨g, _, hg, _⟩ := id hx
    obtain ⟨t, t1, t2, _⟩ := graphs_init hb.init hg
    exact ⟨t, (flatten_required h.unique hb.flat t).1 t1, t2.trans e.symm, t2 ▸ hx⟩
  refine ⟨fun n hn => ?_, fun a ha b hbn l hal hbl => ?_, fun a ha b hbn l hal hbl hne => ?_⟩
  · obtain ⟨x, hx⟩ := hb.of_nodes h hn
    exact hP x n hx
  · by_contra hne
    obtain ⟨t, t1, t2, t3⟩ := hof a ha
    obtain ⟨s, s1, s2, s3⟩ := hof b hbn
    have : s = t := h.unique s t s1 t1 (by rw [s2, t2, ← hal.1, ← hbl.1])
    subst this
    obtain ⟨g, bs, hg, _, hbs⟩ := hb.graph h t1
    obtain ⟨g', bs', hg', hbs', hm⟩ := t3
    obtain ⟨g'', bs'', hg'', hbs'', hm'⟩ := s3
    rw [hg] at hg' hg''
    cases hg'
    cases hg''
    rw [hbs] at hbs' hbs''
    cases hbs'
    cases hbs''
    exact C01_disjoint g (hb.wf h _ _ hg).1 hbs hm hm' hne ⟨l.2, hal.2, hbl.2⟩
  · obtain ⟨u, u1, u2, u3⟩ := hof a ha
    obtain ⟨t', t1', t2', t3'⟩ := hof b hbn
    rcases hbl with ⟨t, t1, t2, ⟨u', hu', e⟩, hv⟩ | ⟨t, t1, t2, hc, e, hv⟩ | hall
    · have : t = t' := h.unique t t' t1 t1' (t2.trans t2'.symm)
      subst this
      have : u' = u := h.unique u' u (hb.link h t1 hu').1 u1 (by rw [u2, ← hal.1, e])
      subst this
      exact Or.inl (Relation.TransGen.single ((edge_iff hbt.1 (hb.wf h) t3').2
        ((C80_links h hb t1 hu' u3 t3').1.2 ⟨l.2, hal.2, hv⟩)))
    · have : t = t' := h.unique t t' t1 t1' (t2.trans t2'.symm)
      subst this
      have : t = u := h.unique t u t1 u1 (by rw [u2, ← hal.1, e])
      subst this
      obtain ⟨g, bs, hg, hgr, hbs⟩ := hb.graph h t1
      obtain ⟨g', bs', hg', hbs', hm⟩ := id u3
      obtain ⟨g'', bs'', hg'', hbs'', hm'⟩ := id t3'
      rw [hg] at hg' hg''
      cases hg'
      cases hg''
      rw [hbs] at hbs' hbs''
      cases hbs'
      cases hbs''
      have hgc : g.conflict = true := by rw [(taskGraph_init hgr).2.2.1]; exact hc
      rcases C07_conflict_ordered g (hb.wf h _ _ hg).1 hgc hbs hm' hm (Ne.symm hne) ⟨l.2, hv, hal.2⟩ with h1 | h1
      · exact Or.inr (anc_of_before hbt.1 (hb.wf h) hg u3 h1)
      · exact Or.inl (anc_of_before hbt.1 (hb.wf h) hg t3' h1)
    · exact absurd (hal.1.trans u2.symm) (hall u u1)

variable {D₀ D : Nat × Coord d → V} {tr : List (Ev (Block d))} {st : Sched (Block d) Nat (Nat × Int)}
  {cur : Block d → Prog (Nat × Coord d) V}

/-- C108: in every execution of a plain pipeline whose process functions keep to their ROIs, the voxels that completed
blocks write have the values that they get if all blocks are processed one after the other, in any order that
respects the dependencies; voxels outside the write ROIs of the blocks that were handed out have not changed; and if
all blocks have completed, the data are altogether those of the sequential processing. -/
theorem C108_data (h : PlainTasks tasks) (hb : Builds tasks r p) (hP : KeepToRois tasks p P)
    (hrun : DataRun p.view P D₀ tr st D cur) (hR : ∀ b, .bad b ∈ tr → Restartable (MayStore b) (P b))
    {order : List (Block d)} (ho : Topological p.view order) :
    (∀ t, Required tasks t → ∀ b, p.BlockOf t.id b → Done tr b → ∀ v, InRoi v b.writeRoi →
      D (t.id, v) = oneByOne P order D₀ (t.id, v)) ∧
    (∀ x v, (∀ b, p.BlockOf x b → InRoi v b.writeRoi → .hand b ∉ tr) → D (x, v) = D₀ (x, v)) ∧
    ((∀ x b, p.BlockOf x b → Done tr b) → D = oneByOne P order D₀) := by
  have hbt := built_of_init hb.init (hb.unique h)
  obtain ⟨h1, h2, h3⟩ := C108_graph (hb.ok h) (hP.disciplined h hb) ho hrun hR
  refine ⟨fun t _ b hbb hdn v hv => h1 b (hb.mem_nodes h hbb) hdn (t.id, v)
    ⟨(blockOf_taskId hbt.1 (hb.wf h) hbb).symm, hv⟩, fun x v hx => h2 (x, v) ?_, fun hall => h3 ?_⟩
  · rintro b hbn hh ⟨e, hv⟩
    obtain ⟨y, hy⟩ := hb.of_nodes h hbn
    have e' : x = y := e.trans (blockOf_taskId hbt.1 (hb.wf h) hy)
    exact hx b (e' ▸ hy) hv hh
  · intro n hn
    obtain ⟨x, hx⟩ := hb.of_nodes h hn
    exact hall x n hx

/-- C108: an order as in `C108_data` exists, so two executions that complete all blocks leave the same data behind. -/
theorem C108_same_data (h : PlainTasks tasks) (hb : Builds tasks r p) (hP : KeepToRois tasks p P)
    {D' : Nat × Coord d → V} {tr' : List (Ev (Block d))} {st' : Sched (Block d) Nat (Nat × Int)}
    {cur' : Block d → Prog (Nat × Coord d) V}
    (hrun : DataRun p.view P D₀ tr st D cur) (hrun' : DataRun p.view P D₀ tr' st' D' cur')
    (hR : ∀ b, .bad b ∈ tr ∨ .bad b ∈ tr' → Restartable (MayStore b) (P b))
    (hall : ∀ x b, p.BlockOf x b → Done tr b ∧ Done tr' b) : D = D' := by
  refine (C108_deterministic (hb.ok h) (hP.disciplined h hb) hrun hrun' hR).2 (fun n hn => ?_)
  obtain ⟨x, hx⟩ := hb.of_nodes h hn
  exact hall x n hx

/-- C108, resuming: if no task has `read_write_conflict` and all process functions can be started again, it does not
matter what earlier runs have left behind in the outputs (nor which blocks are skipped because of that): a run that
completes all blocks ends with the data of every other such run. -/
theorem C108_resumed (h : PlainTasks tasks) (hb : Builds tasks r p) (hP : KeepToRois tasks p P)
    (hc : ∀ t, Required tasks t → t.info.conflict = false)
    (hR : ∀ x b, p.BlockOf x b → Restartable (MayStore b) (P b)) {D₁ D₂ D' : Nat × Coord d → V}
    (h12 : ∀ x v, (∀ b, p.BlockOf x b → ¬ InRoi v b.writeRoi) → D₁ (x, v) = D₂ (x, v))
    {tr' : List (Ev (Block d))} {st' : Sched (Block d) Nat (Nat × Int)} {cur' : Block d → Prog (Nat × Coord d) V}
    (hrun : DataRun p.view P D₁ tr st D cur) (hrun' : DataRun p.view P D₂ tr' st' D' cur')
    (hall : ∀ x b, p.BlockOf x b → Done tr b ∧ Done tr' b) : D = D' := by
  have hbt := built_of_init hb.init (hb.unique h)
  have hd := hP.disciplined h hb
  obtain ⟨order, ho⟩ := exists_topological (hb.ok h).loose
  have hbad : ∀ {D₀ D : Nat × Coord d → V} {tr : List (Ev (Block d))} {st : Sched (Block d) Nat (Nat × Int)}
      {cur : Block d → Prog (Nat × Coord d) V}, DataRun p.view P D₀ tr st D cur → ∀ b, .bad b ∈ tr →
      Restartable (MayStore b) (P b) := by
    intro D₀ D tr st cur hr b hbt
    have hl := hr.run.legal (hb.ok h)
    obtain ⟨pre, post, rfl⟩ := List.append_of_mem hbt
    have hh : Held pre b := hl pre (.bad b) post rfl
    unfold Held at hh
    have hm : Ev.hand b ∈ pre := List.count_pos_iff.1 (by omega)
    obtain ⟨p1, p2, rfl⟩ := List.append_of_mem hm
    have hrd : Ready p.view p1 b := hl p1 (.hand b) (p2 ++ .bad b :: post) (by simp)
    obtain ⟨x, hx⟩ := hb.of_nodes h hrd.1
    exact hR x b hx
  have hnode : ∀ n ∈ p.view.nodes, ∃ x, p.BlockOf x n ∧ n.taskId = x := fun n hn => by
    obtain ⟨x, hx⟩ := hb.of_nodes h hn
    exact ⟨x, hx, blockOf_taskId hbt.1 (hb.wf h) hx⟩
  rw [(C108_data h hb hP hrun (hbad hrun) ho).2.2 (fun x b hx => (hall x b hx).1),
    (C108_data h hb hP hrun' (hbad hrun') ho).2.2 (fun x b hx => (hall x b hx).2)]
  refine C108_resume (hb.ok h) hd ho (fun n hn => ?_) (fun a ha b hbn l hal hbl hne => ?_) (fun l hl => ?_)
  · obtain ⟨x, hx, _⟩ := hnode n hn
    exact hR x n hx
  · rcases hbl with ⟨t, t1, t2, ⟨u, hu, e⟩, hv⟩ | ⟨t, t1, _, htc, _⟩ | hno
    · obtain ⟨x, hx, hxa⟩ := hnode a ha
      obtain ⟨y, hy, hyb⟩ := hnode b hbn
      have ex : x = u.id := by rw [← hxa, ← hal.1, e]
      have ey : y = t.id := by rw [← hyb, t2]
      subst ex ey
      exact Relation.TransGen.single ((edge_iff hbt.1 (hb.wf h) hy).2
        ((C80_links h hb t1 hu hx hy).1.2 ⟨l.2, hal.2, hv⟩))
    · rw [hc t t1] at htc
      cases htc
    · obtain ⟨x, hx, hxa⟩ := hnode a ha
      obtain ⟨g, _, hg, _⟩ := id hx
      obtain ⟨t, t1, t2, _⟩ := graphs_init hb.init hg
      exact absurd (hal.1.trans (hxa.trans t2.symm)) (hno t ((flatten_required h.unique hb.flat t).1 t1))
  · refine h12 l.1 l.2 (fun b hx hv => hl b (hb.mem_nodes h hx) ⟨?_, hv⟩)
    exact (blockOf_taskId hbt.1 (hb.wf h) hx).symm

end Verif.Props
