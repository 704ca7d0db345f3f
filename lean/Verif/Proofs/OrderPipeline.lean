import Verif.Proofs.OrderRun
import Verif.Proofs.Pipeline

/-! # Pipelines in a process with another hash seed (lemmas) -/

namespace Verif
open Spec Verif.Order Pipeline

variable {d : Nat}

theorem sortBlocks_perm {l l' : List (Block d)} (h : l.Perm l') : (sortBlocks l).Perm (sortBlocks l') :=
  (List.perm_insertionSort _ l).trans (h.trans (List.perm_insertionSort _ l').symm)

theorem sortBlocks_le {l : List (Block d)} {x z : Block d} (h : Precedes (sortBlocks l) x z) : x.idNum ≤ z.idNum := by
  have hp : (sortBlocks l).Pairwise (fun a b => a.idNum ≤ b.idNum) := by
    unfold sortBlocks
    have : Std.Total (fun a b : Block d => a.idNum ≤ b.idNum) := ⟨fun a b => le_total _ _⟩
    have : IsTrans (Block d) (fun a b : Block d => a.idNum ≤ b.idNum) := ⟨fun a b c => le_trans⟩
    exact List.pairwise_insertionSort _ l
  have := hp.sublist (precedes_iff.1 h)
  simpa using this

theorem sortBlocks_lt {l : List (Block d)} {x z : Block d} (hx : x ∈ l) (hz : z ∈ l) (h : x.idNum < z.idNum) :
    Precedes (sortBlocks l) x z := by
  rcases precedes_total ((mem_sortBlocks l x).2 hx) ((mem_sortBlocks l z).2 hz) (by rintro rfl; exact lt_irrefl _ h) with h1 | h1
  · exact h1
  · exact absurd (sortBlocks_le h1) (not_le.2 h)

theorem sortBlocks_stable {l : List (Block d)} {x z : Block d} (h : x.idNum ≤ z.idNum) (hp : Precedes l x z) :
    Precedes (sortBlocks l) x z :=
  precedes_iff.2 (List.pair_sublist_insertionSort (r := fun a b : Block d => a.idNum ≤ b.idNum) h (precedes_iff.1 hp))

theorem precedes_append {α : Type} {l l' : List α} {x z : α} (hx : x ∈ l) (hz : z ∈ l') : Precedes (l ++ l') x z := by
  obtain ⟨a, b, rfl⟩ := List.append_of_mem hx
  obtain ⟨a', b', rfl⟩ := List.append_of_mem hz
  exact ⟨a, b ++ a', b', by simp⟩

theorem sort_keeps {us us' L L' : List (Block d)} {y : Nat} (hu : us.Perm us') (hL : L.Perm L') (hnd : (us ++ L).Nodup)
    (hus : ∀ a ∈ us, a.taskId = y) (hLs : ∀ a ∈ L, a.taskId ≠ y)
    (hkey : ∀ a ∈ us ++ L, ∀ b ∈ us ++ L, a.taskId = b.taskId → a.idNum = b.idNum → a = b) {x z : Block d}
    (hD : x.taskId = z.taskId ∨ x.taskId = y ∨ z.taskId = y) (h : Precedes (sortBlocks (us ++ L)) x z) :
    Precedes (sortBlocks (us' ++ L')) x z := by
  obtain ⟨hx, hz⟩ := precedes_mem h
  rw [mem_sortBlocks] at hx hz
  have hperm : (us ++ L).Perm (us' ++ L') := hu.append hL
  have hnds : (sortBlocks (us ++ L)).Nodup := nodup_sortBlocks hnd
  rcases lt_or_eq_of_le (sortBlocks_le h) with hlt | heq
  · exact sortBlocks_lt (hperm.subset hx) (hperm.subset hz) hlt
  · have hne : x.taskId ≠ z.taskId := by
      intro e
      have := hkey x hx z hz e heq
      subst this
      exact precedes_asymm hnds h h
    rcases hD with hD | hD | hD
    · exact absurd hD hne
    · have hxu : x ∈ us := (List.mem_append.1 hx).resolve_right (fun k => hLs x k hD)
      have hzL : z ∈ L := (List.mem_append.1 hz).resolve_left (fun k => hne (hD.trans (hus z k).symm))
      exact sortBlocks_stable heq.le (precedes_append (hu.subset hxu) (hL.subset hzL))
    · have hzu : z ∈ us := (List.mem_append.1 hz).resolve_right (fun k => hLs z k hD)
      have hxL : x ∈ L := (List.mem_append.1 hx).resolve_left (fun k => hne ((hus x k).trans hD.symm))
      exact absurd h (precedes_asymm hnds (sortBlocks_stable heq.symm.le (precedes_append hzu hxL)))

/-- What the queries to other tasks return. -/
def answers (p : Pipeline d) (roi : Roi d) (rr : Bool) (x : Nat) : List (Block d) :=
  match p.graphs x with
  | none => []
  | some g => g.subgraphBlocks roi rr

theorem extend_eq {p : Pipeline d} (roi : Roi d) (rr : Bool) : ∀ (xs : List Nat) (acc : List (Block d)),
    (∀ x ∈ xs, ∃ g, p.graphs x = some g) → p.extend roi rr xs acc = .ok (acc ++ xs.flatMap (answers p roi rr))
  | [], acc, _ => by simp [extend]
  | x :: xs, acc, h => by
    obtain ⟨g, hg⟩ := h x List.mem_cons_self
    simp only [extend, graphOf_ok hg]
    rw [extend_eq roi rr xs _ (fun y hy => h y (List.mem_cons_of_mem _ hy)), List.flatMap_cons, List.append_assoc]
    simp only [answers, hg]

theorem answers_task {p : Pipeline d} (hb : p.Built) {roi : Roi d} {rr : Bool} {xs : List Nat} {a : Block d}
    (h : a ∈ xs.flatMap (answers p roi rr)) : a.taskId ∈ xs := by
  obtain ⟨x, hx, ha⟩ := List.mem_flatMap.1 h
  unfold answers at ha
  split at ha
  · cases ha
  · next g hg =>
    obtain ⟨g', hg', hid⟩ := hb.graph x (hb.only x g hg)
    rw [hg] at hg'; cases hg'
    rw [sub_taskId ha, hid]
    exact hx

/-- Both lists of a block, in the model and with another seed. -/
structure Listed (p : Pipeline d) (y : Nat) (links : List Nat) (l l' : List (Block d)) : Prop where
  parts : ∃ us us' L L', us.Perm us' ∧ L.Perm L' ∧ l = sortBlocks (us ++ L) ∧ l' = sortBlocks (us' ++ L') ∧
    (∀ a ∈ us, p.BlockOf y a) ∧ ∀ a ∈ L, a.taskId ∈ links

theorem listed_up {p : Pipeline d} (hb : p.Built) (hw : p.Wf) {g' : DGraph (Block d) Nat (Nat × Int)} (ho : OtherSeed p g')
    {y : Nat} {b : Block d} (h : p.BlockOf y b) : Listed p y (p.tg.ups y) (p.view.up b) (g'.up b) := by
  have hid := blockOf_taskId hb hw h
  have h' := h
  obtain ⟨g, bs, hg, hbs, hmem⟩ := h
  obtain ⟨us, ds, u1, _, _, _, u5, _⟩ := Props.C08_closed g (hw y g hg).1 (hw y g hg).2.1 hbs hmem
  obtain ⟨us', xs, l, p1, p2, p3, p4⟩ := ho.up y b g us h' hg u1
  have hgx : ∀ x ∈ p.tg.ups y, ∃ g, p.graphs x = some g := fun x hx => by
    obtain ⟨gx, hgx, _⟩ := hb.graph x (hb.inv.mem _ _ hx).1
    exact ⟨gx, hgx⟩
  rw [extend_eq _ _ xs us' (fun x hx => hgx x (p2.symm.subset hx))] at p3
  cases p3
  have hv : p.view.up b = sortBlocks (us ++ (p.tg.ups y).flatMap (answers p b.readRoi false)) := by
    change okOr (p.upstream b) [] = _
    unfold upstream
    rw [hid, graphOf_ok hg]
    change okOr (g.upstream b >>= _) [] = _
    rw [u1]
    change okOr (p.extend _ _ _ _ >>= _) [] = _
    rw [extend_eq _ _ _ _ hgx]
    rfl
  exact ⟨us, us', _, _, p1, p2.flatMap_right _, hv, p4, fun a ha => ⟨g, bs, hg, hbs, u5 a ha⟩,
    fun a ha => answers_task hb ha⟩

theorem listed_down {p : Pipeline d} (hb : p.Built) (hw : p.Wf) {g' : DGraph (Block d) Nat (Nat × Int)} (ho : OtherSeed p g')
    {y : Nat} {b : Block d} (h : p.BlockOf y b) : Listed p y (p.tg.downs y) (p.view.down b) (g'.down b) := by
  have hid := blockOf_taskId hb hw h
  have h' := h
  obtain ⟨g, bs, hg, hbs, hmem⟩ := h
  obtain ⟨us, ds, _, u1, _, _, _, u5⟩ := Props.C08_closed g (hw y g hg).1 (hw y g hg).2.1 hbs hmem
  obtain ⟨us', xs, l, p1, p2, p3, p4⟩ := ho.down y b g ds h' hg u1
  have hgx : ∀ x ∈ p.tg.downs y, ∃ g, p.graphs x = some g := fun x hx => by
    obtain ⟨gx, hgx, _⟩ := hb.graph x (hb.inv.mem _ _ ((hb.inv.dual _ _).1 hx)).2
    exact ⟨gx, hgx⟩
  rw [extend_eq _ _ xs us' (fun x hx => hgx x (p2.symm.subset hx))] at p3
  cases p3
  have hv : p.view.down b = sortBlocks (ds ++ (p.tg.downs y).flatMap (answers p b.writeRoi true)) := by
    change okOr (p.downstream b) [] = _
    unfold downstream
    rw [hid, graphOf_ok hg]
    change okOr (g.downstream b >>= _) [] = _
    rw [u1]
    change okOr (p.extend _ _ _ _ >>= _) [] = _
    rw [extend_eq _ _ _ _ hgx]
    rfl
  exact ⟨ds, us', _, _, p1, p2.flatMap_right _, hv, p4, fun a ha => ⟨g, bs, hg, hbs, u5 a ha⟩,
    fun a ha => answers_task hb ha⟩

theorem Listed.perm {p : Pipeline d} {y : Nat} {links : List Nat} {l l' : List (Block d)} (h : Listed p y links l l') :
    l.Perm l' := by
  obtain ⟨us, us', L, L', h1, h2, rfl, rfl, _⟩ := h
  exact sortBlocks_perm (h1.append h2)

theorem Listed.keeps {p : Pipeline d} (hb : p.Built) (hw : p.Wf) {y : Nat} {links : List Nat} {l l' : List (Block d)}
    (h : Listed p y links l l') (hy : y ∉ links) (hn : l.Nodup)
    (hkey : ∀ a ∈ l, ∀ b ∈ l, a.taskId = b.taskId → a.idNum = b.idNum → a = b) {x z : Block d}
    (hD : x.taskId = z.taskId ∨ x.taskId = y ∨ z.taskId = y) (hp : Precedes l x z) : Precedes l' x z := by
  obtain ⟨us, us', L, L', h1, h2, rfl, rfl, h3, h4⟩ := h
  refine sort_keeps h1 h2 ((List.perm_insertionSort _ _).nodup_iff.1 hn) (fun a ha => blockOf_taskId hb hw (h3 a ha))
    (fun a ha e => hy (e ▸ h4 a ha)) (fun a ha b hb => ?_) hD hp
  exact hkey a ((mem_sortBlocks _ a).2 ha) b ((mem_sortBlocks _ b).2 hb)

theorem Listed.task {p : Pipeline d} (hb : p.Built) (hw : p.Wf) {y : Nat} {links : List Nat} {l l' : List (Block d)}
    (h : Listed p y links l l') {a : Block d} (ha : a ∈ l) : a.taskId = y ∨ a.taskId ∈ links := by
  obtain ⟨us, us', L, L', h1, h2, rfl, rfl, h3, h4⟩ := h
  rw [mem_sortBlocks] at ha
  rcases List.mem_append.1 ha with ha | ha
  · exact Or.inl (blockOf_taskId hb hw (h3 a ha))
  · exact Or.inr (h4 a ha)

/-- Another seed gives the same graph with its lists in another order. -/
theorem shuffled_of_seed {p : Pipeline d} (hb : p.Built) (hw : p.Wf) (hof : ∀ b ∈ p.view.nodes, ∃ x, p.BlockOf x b)
    {g' : DGraph (Block d) Nat (Nat × Int)} (ho : OtherSeed p g') : Shuffled p.view g' := by
  refine ⟨ho.same, fun n hn => ?_, fun n hn => ?_⟩
  · obtain ⟨y, hy⟩ := hof n hn
    exact (listed_up hb hw ho hy).perm
  · obtain ⟨y, hy⟩ := hof n hn
    exact (listed_down hb hw ho hy).perm

/-- Without shortcuts the order of related blocks is kept. -/
theorem reordered_of_seed {p : Pipeline d} (hb : p.Built) (hw : p.Wf) (hof : ∀ b ∈ p.view.nodes, ∃ x, p.BlockOf x b)
    (hok : p.view.OK) (hns : ∀ x y z, x ∈ p.tg.ups y → y ∈ p.tg.ups z → x ∉ p.tg.ups z)
    {g' : DGraph (Block d) Nat (Nat × Int)} (ho : OtherSeed p g') : Reordered p.view g' := by
  have hkey : ∀ a ∈ p.view.nodes, ∀ b ∈ p.view.nodes, a.taskId = b.taskId → a.idNum = b.idNum → a = b :=
    fun a ha b hb e1 e2 => hok.key_inj a ha b hb (Prod.ext e1 e2)
  have hlink : ∀ x z, x ∈ p.view.nodes → z ∈ p.view.nodes → Linked p.view x z →
      x.taskId = z.taskId ∨ x.taskId ∈ p.tg.ups z.taskId ∨ z.taskId ∈ p.tg.ups x.taskId := by
    intro x z hx hz hl
    have h1 : ∀ {x z}, z ∈ p.view.nodes → x ∈ p.view.up z → x.taskId = z.taskId ∨ x.taskId ∈ p.tg.ups z.taskId := by
      intro x z hz h
      obtain ⟨y, hy⟩ := hof z hz
      rw [blockOf_taskId hb hw hy]
      exact (listed_up hb hw ho hy).task hb hw h
    rcases hl with h | h
    · exact (h1 hz h).imp_right Or.inl
    · rcases h1 hx h with e | e
      · exact Or.inl e.symm
      · exact Or.inr (Or.inr e)
  refine ⟨shuffled_of_seed hb hw hof ho, ?_, ?_, ?_⟩
  · intro n hn x z hl hp
    obtain ⟨y, hy⟩ := hof n hn
    have hL := listed_up hb hw ho hy
    obtain ⟨hx, hz⟩ := precedes_mem hp
    have hxn := hok.up_mem n hn x hx
    have hzn := hok.up_mem n hn z hz
    refine hL.keeps hb hw (hb.irrefl y) (hok.up_nodup n hn) (fun a ha b hb => hkey a (hok.up_mem n hn a ha) b
      (hok.up_mem n hn b hb)) ?_ hp
    rcases hL.task hb hw hx with e | e
    · exact Or.inr (Or.inl e)
    · rcases hL.task hb hw hz with e' | e'
      · exact Or.inr (Or.inr e')
      · rcases hlink x z hxn hzn hl with k | k | k
        · exact Or.inl k
        · exact absurd e (hns _ _ _ k e')
        · exact absurd e' (hns _ _ _ k e)
  · intro n hn x z hl hp
    obtain ⟨y, hy⟩ := hof n hn
    have hL := listed_down hb hw ho hy
    obtain ⟨hx, hz⟩ := precedes_mem hp
    have hxn := hok.down_mem n hn x hx
    have hzn := hok.down_mem n hn z hz
    refine hL.keeps hb hw (fun k => hb.irrefl y ((hb.inv.dual _ _).1 k)) (hok.down_nodup n hn) (fun a ha b hb => hkey a
      (hok.down_mem n hn a ha) b (hok.down_mem n hn b hb)) ?_ hp
    rcases hL.task hb hw hx with e | e
    · exact Or.inr (Or.inl e)
    · rcases hL.task hb hw hz with e' | e'
      · exact Or.inr (Or.inr e')
      · have e1 := (hb.inv.dual _ _).1 e
        have e2 := (hb.inv.dual _ _).1 e'
        rcases hlink x z hxn hzn hl with k | k | k
        · exact Or.inl k
        · exact absurd e2 (hns _ _ _ e1 k)
        · exact absurd e1 (hns _ _ _ e2 k)
  · intro n hn x z ht hp
    obtain ⟨y, hy⟩ := hof n hn
    have hL := listed_down hb hw ho hy
    exact hL.keeps hb hw (fun k => hb.irrefl y ((hb.inv.dual _ _).1 k)) (hok.down_nodup n hn) (fun a ha b hb => hkey a
      (hok.down_mem n hn a ha) b (hok.down_mem n hn b hb)) (Or.inl ht) hp

/-- The pipeline with the sets of tasks listed in another order. -/
theorem otherSeed_of_perm {p p' : Pipeline d} (hb : p.Built) (hw : p.Wf) (hgr : p'.graphs = p.graphs)
    (hids : p'.tg.ids = p.tg.ids) (hmap : p'.tg.taskMap = p.tg.taskMap) (hu : ∀ y, (p.tg.ups y).Perm (p'.tg.ups y))
    (hd : ∀ y, (p.tg.downs y).Perm (p'.tg.downs y)) : OtherSeed p p'.view := by
  have hgo : p'.graphOf = p.graphOf := by funext x; unfold graphOf; rw [hgr]
  have hex : ∀ roi rr xs acc, p'.extend roi rr xs acc = p.extend roi rr xs acc := by
    intro roi rr xs
    induction xs with
    | nil => intro acc; rfl
    | cons x xs ih => intro acc; simp only [extend, hgo, ih]
  refine ⟨?_, ?_, ?_⟩
  · have h1 : p'.tg.rootTasks = p.tg.rootTasks := by
      unfold TaskGraph.rootTasks
      rw [hids]
      refine List.filter_congr fun x _ => ?_
      rw [(hu x).length_eq]
    have h2 : p'.maxRetries = p.maxRetries := by funext x; unfold Pipeline.maxRetries; rw [hmap]
    unfold view
    simp only [numBlocks, numRoots, rootGen, blocks, hgo, hids, h1, h2]
  · intro y b g us hy hg hus
    obtain ⟨l, hl, _⟩ := extend_spec (p := p) b.readRoi false (p'.tg.ups y) us (fun x hx => by
      obtain ⟨gx, hgx, _⟩ := hb.graph x (hb.inv.mem _ _ ((hu y).symm.subset hx)).1
      exact ⟨gx, hgx⟩)
    refine ⟨us, p'.tg.ups y, us ++ l, List.Perm.refl _, hu y, hl, ?_⟩
    change okOr (p'.upstream b) [] = _
    unfold upstream
    rw [blockOf_taskId hb hw hy, hgo, graphOf_ok hg]
    change okOr (g.upstream b >>= _) [] = _
    rw [hus]
    change okOr (p'.extend _ _ _ _ >>= _) [] = _
    rw [hex, hl]
    rfl
  · intro y b g us hy hg hus
    obtain ⟨l, hl, _⟩ := extend_spec (p := p) b.writeRoi true (p'.tg.downs y) us (fun x hx => by
      obtain ⟨gx, hgx, _⟩ := hb.graph x (hb.inv.mem _ _ ((hb.inv.dual _ _).1 ((hd y).symm.subset hx))).2
      exact ⟨gx, hgx⟩)
    refine ⟨us, p'.tg.downs y, us ++ l, List.Perm.refl _, hd y, hl, ?_⟩
    change okOr (p'.downstream b) [] = _
    unfold downstream
    rw [blockOf_taskId hb hw hy, hgo, graphOf_ok hg]
    change okOr (g.downstream b >>= _) [] = _
    rw [hus]
    change okOr (p'.extend _ _ _ _ >>= _) [] = _
    rw [hex, hl]
    rfl

end Verif
