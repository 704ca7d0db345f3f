import Verif.Proofs.Order

/-! # `mark_success` and `mark_failure` on reordered graphs (lemmas) -/

namespace Verif
open Spec Verif.Order

variable {N T K : Type}

theorem RS.ext {a b : RS N} (h1 : a.surface = b.surface) (h2 : a.boundary = b.boundary) : a = b := by
  cases a; cases b; simp_all

namespace Spec.Shuffled

variable {g g' : DGraph N T K}

theorem nodes (h : Shuffled g g') : g'.nodes = g.nodes := by rw [h.same]
theorem task (h : Shuffled g g') : g'.task = g.task := by rw [h.same]
theorem key (h : Shuffled g g') : g'.key = g.key := by rw [h.same]
theorem tasks (h : Shuffled g g') : g'.tasks = g.tasks := by rw [h.same]
theorem total (h : Shuffled g g') : g'.total = g.total := by rw [h.same]
theorem rootTasks (h : Shuffled g g') : g'.rootTasks = g.rootTasks := by rw [h.same]
theorem numRoots (h : Shuffled g g') : g'.numRoots = g.numRoots := by rw [h.same]
theorem rootGen (h : Shuffled g g') : g'.rootGen = g.rootGen := by rw [h.same]
theorem maxRetries (h : Shuffled g g') : g'.maxRetries = g.maxRetries := by rw [h.same]

theorem mem_up (h : Shuffled g g') {n x : N} (hn : n ∈ g.nodes) : x ∈ g'.up n ↔ x ∈ g.up n :=
  (h.up n hn).symm.mem_iff

theorem mem_down (h : Shuffled g g') {n x : N} (hn : n ∈ g.nodes) : x ∈ g'.down n ↔ x ∈ g.down n :=
  (h.down n hn).symm.mem_iff

/-- The reordered graph meets the conditions the theorems about the scheduler ask for. -/
theorem ok (h : Shuffled g g') (hg : g.OK) : g'.OK where
  nodes_nodup := by rw [h.nodes]; exact hg.nodes_nodup
  up_mem := by
    rw [h.nodes]
    exact fun n hn m hm => hg.up_mem n hn m ((h.mem_up hn).1 hm)
  down_mem := by
    rw [h.nodes]
    exact fun n hn m hm => hg.down_mem n hn m ((h.mem_down hn).1 hm)
  up_nodup := by
    rw [h.nodes]
    exact fun n hn => (h.up n hn).nodup_iff.1 (hg.up_nodup n hn)
  down_nodup := by
    rw [h.nodes]
    exact fun n hn => (h.down n hn).nodup_iff.1 (hg.down_nodup n hn)
  dual := by
    rw [h.nodes]
    intro a ha b hb
    rw [h.mem_down ha, h.mem_up hb]
    exact hg.dual a ha b hb
  acyclic := by
    obtain ⟨rank, hr⟩ := hg.acyclic
    refine ⟨rank, ?_⟩
    rw [h.nodes]
    exact fun b hb a ha => hr b hb a ((h.mem_up hb).1 ha)
  key_inj := by rw [h.nodes, h.key]; exact hg.key_inj
  tasks_nodup := by rw [h.tasks]; exact hg.tasks_nodup
  task_mem := by rw [h.nodes, h.task, h.tasks]; exact hg.task_mem
  total_eq := by rw [h.nodes, h.task, h.tasks, h.total]; exact hg.total_eq
  rootTasks_nodup := by rw [h.rootTasks]; exact hg.rootTasks_nodup
  rootTasks_mem := by rw [h.rootTasks, h.tasks]; exact hg.rootTasks_mem
  numRoots_eq := by rw [h.rootTasks, h.numRoots, h.rootGen]; exact hg.numRoots_eq
  rootGen_nodup := by rw [h.rootTasks, h.rootGen]; exact hg.rootGen_nodup
  rootGen_mem := by
    rw [h.rootTasks, h.rootGen, h.nodes, h.task]
    intro t ht n
    rw [hg.rootGen_mem t ht n]
    refine and_congr_right fun hn => and_congr_right fun _ => ?_
    constructor
    · intro e; have := h.up n hn; rw [e] at this; exact List.nil_perm.1 this
    · intro e; have := h.up n hn; rw [e] at this; exact List.perm_nil.1 this
  other_tasks := by
    rw [h.nodes, h.task, h.rootTasks]
    intro n hn ht e
    have := h.up n hn; rw [e] at this
    exact hg.other_tasks n hn ht (List.perm_nil.1 this)

theorem symm (h : Shuffled g g') : Shuffled g' g where
  same := by rw [h.same]
  up := by rw [h.nodes]; exact fun n hn => (h.up n hn).symm
  down := by rw [h.nodes]; exact fun n hn => (h.down n hn).symm

end Spec.Shuffled

namespace RS

variable [DecidableEq N] {g g' : DGraph N T K}

/-! ## The loop over upstream nodes -/

/-- Every downstream node is on the surface or the boundary, and not on both. -/
def Covered (g : DGraph N T K) (rs : RS N) (u : N) : Prop :=
  ∀ d ∈ g.down u, ¬ (d ∈ rs.surface ↔ d ∈ rs.boundary)

/-- What `cleanUp` removes from the boundary. -/
def Drop (g : DGraph N T K) (rs : RS N) (u d : N) : Prop :=
  d ∈ g.down u ∧ d ∉ rs.surface ∧ ∀ v ∈ g.up d, v ∈ rs.surface → v = u

open Classical in
/-- `cleanUp` for a node on the surface. -/
noncomputable def cleaned (g : DGraph N T K) (rs : RS N) (u : N) : RS N :=
  if Covered g rs u then ⟨rs.surface.erase u, rs.boundary.filter (fun d => ¬ Drop g rs u d)⟩ else rs

theorem cleaned_pos {rs : RS N} {u : N} (h : Covered g rs u) : (cleaned g rs u).surface = rs.surface.erase u ∧
    ∀ d, d ∈ (cleaned g rs u).boundary ↔ d ∈ rs.boundary ∧ ¬ Drop g rs u d := by
  unfold cleaned
  rw [if_pos h]
  exact ⟨rfl, fun d => by simp only [Finset.mem_filter]⟩

theorem cleaned_neg {rs : RS N} {u : N} (h : ¬ Covered g rs u) : cleaned g rs u = rs := by
  unfold cleaned
  rw [if_neg h]

theorem contained_ne (rs : RS N) (d : N) : 0 < (rs.contained d).natAbs ↔ ¬ (d ∈ rs.surface ↔ d ∈ rs.boundary) := by
  unfold contained
  by_cases h1 : d ∈ rs.surface <;> by_cases h2 : d ∈ rs.boundary <;> simp [h1, h2]

theorem contained_neg (rs : RS N) (d : N) : rs.contained d < 0 ↔ d ∉ rs.surface ∧ d ∈ rs.boundary := by
  unfold contained
  by_cases h1 : d ∈ rs.surface <;> by_cases h2 : d ∈ rs.boundary <;> simp [h1, h2]

theorem foldRemove_mem : ∀ (l : List (N × Int)) (r : RS N),
    (l.foldl (fun r dc => if dc.2 < 0 then r.removeFromBoundary g dc.1 else r) r).surface = r.surface ∧
    ∀ x, x ∈ (l.foldl (fun r dc => if dc.2 < 0 then r.removeFromBoundary g dc.1 else r) r).boundary ↔
      x ∈ r.boundary ∧ ¬ (∃ dc ∈ l, dc.1 = x ∧ dc.2 < 0 ∧ ∀ u ∈ g.up x, u ∉ r.surface)
  | [], r => by simp
  | (d, c) :: l, r => by
    rw [List.foldl_cons]
    obtain ⟨h1, h2⟩ := foldRemove_mem l (if c < 0 then r.removeFromBoundary g d else r)
    have hs : (if c < 0 then r.removeFromBoundary g d else r).surface = r.surface := by
      split
      · exact removeFromBoundary_surface r d
      · rfl
    refine ⟨h1.trans hs, fun x => ?_⟩
    rw [h2 x, hs]
    have hb : x ∈ (if c < 0 then r.removeFromBoundary g d else r).boundary ↔
        x ∈ r.boundary ∧ ¬ (d = x ∧ c < 0 ∧ ∀ u ∈ g.up x, u ∉ r.surface) := by
      by_cases hc : c < 0
      · rw [if_pos hc]
        unfold removeFromBoundary
        split
        · next hd =>
          rw [Finset.mem_erase]
          constructor
          · rintro ⟨hne, hx⟩; exact ⟨hx, fun h => hne h.1.symm⟩
          · rintro ⟨hx, hn⟩
            exact ⟨fun e => hn ⟨e.symm, hc, e ▸ hd.2⟩, hx⟩
        · next hd =>
          constructor
          · intro hx
            refine ⟨hx, ?_⟩
            rintro ⟨rfl, _, h⟩
            exact hd ⟨hx, h⟩
          · exact fun h => h.1
      · rw [if_neg hc]
        exact ⟨fun h => ⟨h, fun k => hc k.2.1⟩, fun h => h.1⟩
    rw [hb]
    simp only [List.mem_cons, exists_eq_or_imp]
    rw [and_assoc, not_or]

theorem cleanUp_eq {rs : RS N} {u : N} (hu : u ∈ rs.surface) : cleanUp g rs u = .ok (cleaned g rs u) := by
  unfold cleanUp
  have hcov : ((g.down u).map rs.contained).all (fun c => 0 < c.natAbs) = true ↔ Covered g rs u := by
    rw [List.all_eq_true]
    simp only [List.mem_map, forall_exists_index, and_imp, forall_apply_eq_imp_iff₂, decide_eq_true_eq, contained_ne]
    rfl
  by_cases hc : Covered g rs u
  · simp only [hcov.2 hc, if_true, setRemove, if_pos hu]
    congr 1
    obtain ⟨h1, h2⟩ := foldRemove_mem (g := g) ((g.down u).zip ((g.down u).map rs.contained))
      { rs with surface := rs.surface.erase u }
    obtain ⟨c1, c2⟩ := cleaned_pos hc
    refine RS.ext (h1.trans c1.symm) ?_
    ext x
    rw [h2 x, c2 x]
    refine and_congr_right fun hx => not_congr ?_
    have hz : ∀ l : List N, l.zip (l.map rs.contained) = l.map (fun d => (d, rs.contained d)) := by
      intro l
      induction l with
      | nil => rfl
      | cons y l ih => rw [List.map_cons, List.zip_cons_cons, ih, List.map_cons]
    rw [hz]
    constructor
    · rintro ⟨dc, hdc, rfl, hneg, hall⟩
      obtain ⟨d, hd, rfl⟩ := List.mem_map.1 hdc
      refine ⟨hd, ((contained_neg rs d).1 hneg).1, fun v hv hvs => ?_⟩
      by_contra hne
      exact hall v hv (Finset.mem_erase.2 ⟨hne, hvs⟩)
    · rintro ⟨hd, hns, hall⟩
      refine ⟨_, List.mem_map.2 ⟨x, hd, rfl⟩, rfl, (contained_neg rs x).2 ⟨hns, hx⟩, fun v hv hvs => ?_⟩
      exact (Finset.mem_erase.1 hvs).1 (hall v hv (Finset.mem_erase.1 hvs).2)
  · rw [cleaned_neg hc]
    simp only
    rw [if_neg (fun h => hc (hcov.1 h))]

theorem cleaned_keeps {rs : RS N} {u v : N} (hne : u ≠ v) (hv : v ∈ rs.surface) : v ∈ (cleaned g rs u).surface := by
  unfold cleaned
  split
  · exact Finset.mem_erase.2 ⟨Ne.symm hne, hv⟩
  · exact hv

theorem cleanUps_eq : ∀ (us : List N) (rs : RS N), us.Nodup → (∀ u ∈ us, u ∈ rs.surface) →
    cleanUps g us rs = .ok (us.foldl (cleaned g) rs)
  | [], rs, _, _ => rfl
  | u :: us, rs, hn, hs => by
    obtain ⟨hu, hn⟩ := List.nodup_cons.1 hn
    simp only [cleanUps, cleanUp_eq (hs u List.mem_cons_self), List.foldl_cons]
    exact cleanUps_eq us _ hn (fun v hv => cleaned_keeps (fun e => hu (e ▸ hv)) (hs v (List.mem_cons_of_mem _ hv)))

theorem covered_cleaned (hg : g.OK) {rs : RS N} {u v : N} (hv : v ∈ g.nodes) (hne : u ≠ v)
    (hvs : v ∈ rs.surface) (hl : ¬ Linked g u v) : Covered g (cleaned g rs u) v ↔ Covered g rs v := by
  by_cases hc : Covered g rs u
  · obtain ⟨c1, c2⟩ := cleaned_pos hc
    unfold Covered
    refine forall_congr' fun d => forall_congr' fun hd => not_congr ?_
    have hdn := hg.down_mem v hv d hd
    have hvd : v ∈ g.up d := (hg.dual v hv d hdn).1 hd
    have h1 : d ≠ u := by
      rintro rfl
      exact hl (Or.inr hvd)
    have h2 : ¬ Drop g rs u d := fun h => hne (h.2.2 v hvd hvs).symm
    rw [c1, c2 d, Finset.mem_erase]
    simp only [h1, h2, ne_eq, not_false_eq_true, true_and, and_true]
  · rw [cleaned_neg hc]

theorem cleaned_comm (hg : g.OK) {rs : RS N} {u v : N} (hu : u ∈ g.nodes) (hv : v ∈ g.nodes) (hne : u ≠ v)
    (hus : u ∈ rs.surface) (hvs : v ∈ rs.surface) (hl : ¬ Linked g u v) :
    cleaned g (cleaned g rs u) v = cleaned g (cleaned g rs v) u := by
  have hl' : ¬ Linked g v u := fun h => hl (Or.symm h)
  have hcv := covered_cleaned hg hv hne hvs hl
  have hcu := covered_cleaned hg hu (Ne.symm hne) hus hl'
  by_cases h1 : Covered g rs u
  · by_cases h2 : Covered g rs v
    · have key : ∀ {u v : N}, u ∈ g.nodes → v ∈ g.nodes → u ≠ v → u ∈ rs.surface → v ∈ rs.surface →
          ¬ Linked g u v → Covered g rs u → Covered g rs v →
          (cleaned g (cleaned g rs u) v).surface = (rs.surface.erase u).erase v ∧
          ∀ d, d ∈ (cleaned g (cleaned g rs u) v).boundary ↔ d ∈ rs.boundary ∧
            ¬ ((d ∈ g.down u ∨ d ∈ g.down v) ∧ d ∉ rs.surface ∧
              ∀ w ∈ g.up d, w ∈ rs.surface → w = u ∨ w = v) := by
        intro u v hu hv hne hus hvs hl h1 h2
        have hcv := covered_cleaned hg hv hne hvs hl
        obtain ⟨c1, eb⟩ := cleaned_pos h1
        obtain ⟨d1, d2⟩ := cleaned_pos (hcv.2 h2)
        refine ⟨by rw [d1, c1], fun d => ?_⟩
        rw [d2 d, eb d]
        have es : ∀ w, w ∈ (cleaned g rs u).surface ↔ w ≠ u ∧ w ∈ rs.surface := by
          intro w; rw [c1]; exact Finset.mem_erase
        rw [and_assoc]
        refine and_congr_right fun _ => ?_
        rw [← not_or]
        refine not_congr ?_
        unfold Drop
        simp only [es]
        constructor
        · rintro (⟨a, b, c⟩ | ⟨a, b, c⟩)
          · exact ⟨Or.inl a, b, fun w hw hs => Or.inl (c w hw hs)⟩
          · have hdn := hg.down_mem v hv d a
            have hdu : d ≠ u := by
              rintro rfl
              exact hl (Or.inr ((hg.dual v hv d hdn).1 a))
            refine ⟨Or.inr a, fun hs => b ⟨hdu, hs⟩, fun w hw hs => ?_⟩
            by_cases hwu : w = u
            · exact Or.inl hwu
            · exact Or.inr (c w hw ⟨hwu, hs⟩)
        · rintro ⟨a, b, c⟩
          by_cases hdv : d ∈ g.down v
          · exact Or.inr ⟨hdv, fun h => b h.2, fun w hw hs => (c w hw hs.2).resolve_left hs.1⟩
          · have hdu := a.resolve_right hdv
            have hdn := hg.down_mem u hu d hdu
            refine Or.inl ⟨hdu, b, fun w hw hs => (c w hw hs).resolve_right ?_⟩
            rintro rfl
            exact hdv ((hg.dual w hv d hdn).2 hw)
      obtain ⟨a1, a2⟩ := key hu hv hne hus hvs hl h1 h2
      obtain ⟨b1, b2⟩ := key hv hu (Ne.symm hne) hvs hus hl' h2 h1
      refine RS.ext (by rw [a1, b1, Finset.erase_right_comm]) ?_
      ext d
      rw [a2, b2]
      refine and_congr_right fun _ => not_congr ?_
      rw [or_comm]
      refine and_congr_right fun _ => and_congr_right fun _ => ?_
      refine forall_congr' fun w => forall_congr' fun _ => forall_congr' fun _ => or_comm
    · rw [cleaned_neg h2, cleaned_neg (fun h => h2 (hcv.1 h))]
  · rw [cleaned_neg h1, cleaned_neg (fun h => h1 (hcu.1 h))]

theorem cleaned_shuffled (h : Shuffled g g') (hg : g.OK) {u : N} (hu : u ∈ g.nodes) (rs : RS N) :
    cleaned g' rs u = cleaned g rs u := by
  have h1 : Covered g' rs u ↔ Covered g rs u := by
    unfold Covered
    exact forall_congr' fun d => by rw [h.mem_down hu]
  have h2 : ∀ d, Drop g' rs u d ↔ Drop g rs u d := by
    intro d
    unfold Drop
    rw [h.mem_down hu]
    refine and_congr_right fun hd => and_congr_right fun _ => ?_
    exact forall_congr' fun v => by rw [h.mem_up (hg.down_mem u hu d hd)]
  by_cases hc : Covered g rs u
  · obtain ⟨c1, c2⟩ := cleaned_pos hc
    obtain ⟨d1, d2⟩ := cleaned_pos (h1.2 hc)
    refine RS.ext (d1.trans c1.symm) ?_
    ext d
    rw [d2, c2, h2]
  · rw [cleaned_neg hc, cleaned_neg (fun k => hc (h1.1 k))]

theorem cleanUps_reordered (h : Reordered g g') (hg : g.OK) {n : N} (hn : n ∈ g.nodes) {rs : RS N}
    (hs : ∀ u ∈ g.up n, u ∈ rs.surface) : cleanUps g' (g'.up n) rs = cleanUps g (g.up n) rs := by
  have hg' := h.toShuffled.ok hg
  have hn' : n ∈ g'.nodes := by rw [h.nodes]; exact hn
  rw [cleanUps_eq _ _ (hg'.up_nodup n hn') (fun u hu => hs u ((h.mem_up hn).1 hu)),
    cleanUps_eq _ _ (hg.up_nodup n hn) hs]
  congr 1
  have e1 : (g'.up n).foldl (cleaned g') rs = (g'.up n).foldl (cleaned g) rs := by
    have : ∀ (l : List N) (rs : RS N), (∀ u ∈ l, u ∈ g.nodes) → l.foldl (cleaned g') rs = l.foldl (cleaned g) rs := by
      intro l
      induction l with
      | nil => intro _ _; rfl
      | cons u l ih =>
        intro rs hl
        rw [List.foldl_cons, List.foldl_cons, cleaned_shuffled h.toShuffled hg (hl u List.mem_cons_self),
          ih _ (fun v hv => hl v (List.mem_cons_of_mem _ hv))]
    exact this _ rs (fun u hu => hg.up_mem n hn u ((h.mem_up hn).1 hu))
  rw [e1]
  refine (foldl_reorder (cleaned g) (Linked g) (fun rs u => u ∈ g.nodes ∧ u ∈ rs.surface) ?_ ?_ _ _
    (h.up n hn) (hg.up_nodup n hn) (h.linked_up n hn) rs (fun u hu => ⟨hg.up_mem n hn u hu, hs u hu⟩)).symm
  · exact fun b x y hne hx hy => ⟨hy.1, cleaned_keeps hne hy.2⟩
  · exact fun b x y hne hx hy hl => cleaned_comm hg hx.1 hy.1 hne hx.2 hy.2 hl

/-! ## The loop over downstream nodes -/

theorem add_surface (rs : RS N) (m : N) : (addToBoundary g rs m).2.surface = rs.surface := by
  unfold addToBoundary
  split <;> rfl

theorem add_mem (rs : RS N) (m x : N) : x ∈ (addToBoundary g rs m).2.boundary ↔
    x ∈ rs.boundary ∨ x = m ∧ ∃ u ∈ g.up m, u ∈ rs.boundary := by
  unfold addToBoundary
  split
  · next h =>
    simp only [Finset.mem_insert]
    constructor
    · rintro (rfl | hx)
      · exact Or.inr ⟨rfl, h.2⟩
      · exact Or.inl hx
    · rintro (hx | ⟨rfl, _⟩)
      · exact Or.inr hx
      · exact Or.inl rfl
  · next h =>
    constructor
    · exact Or.inl
    · rintro (hx | ⟨rfl, hu⟩)
      · exact hx
      · by_contra hn
        exact h ⟨hn, hu⟩

theorem add_comm (rs : RS N) {x y : N} (hl : ¬ Linked g x y) :
    (addToBoundary g (addToBoundary g rs x).2 y).2 = (addToBoundary g (addToBoundary g rs y).2 x).2 := by
  have h1 : x ∉ g.up y := fun h => hl (Or.inl h)
  have h2 : y ∉ g.up x := fun h => hl (Or.inr h)
  refine RS.ext (by simp only [add_surface]) ?_
  ext z
  simp only [add_mem]
  have e1 : (∃ u ∈ g.up y, u ∈ rs.boundary ∨ u = x ∧ ∃ u ∈ g.up x, u ∈ rs.boundary) ↔ ∃ u ∈ g.up y, u ∈ rs.boundary := by
    constructor
    · rintro ⟨u, hu, h | ⟨rfl, _⟩⟩
      · exact ⟨u, hu, h⟩
      · exact absurd hu h1
    · rintro ⟨u, hu, h⟩; exact ⟨u, hu, Or.inl h⟩
  have e2 : (∃ u ∈ g.up x, u ∈ rs.boundary ∨ u = y ∧ ∃ u ∈ g.up y, u ∈ rs.boundary) ↔ ∃ u ∈ g.up x, u ∈ rs.boundary := by
    constructor
    · rintro ⟨u, hu, h | ⟨rfl, _⟩⟩
      · exact ⟨u, hu, h⟩
      · exact absurd hu h2
    · rintro ⟨u, hu, h⟩; exact ⟨u, hu, Or.inl h⟩
  rw [e1, e2]
  exact or_right_comm

theorem add_shuffled (h : Shuffled g g') {m : N} (hm : m ∈ g.nodes) (rs : RS N) :
    addToBoundary g' rs m = addToBoundary g rs m := by
  unfold addToBoundary
  have : (m ∉ rs.boundary ∧ ∃ u ∈ g'.up m, u ∈ rs.boundary) ↔ (m ∉ rs.boundary ∧ ∃ u ∈ g.up m, u ∈ rs.boundary) := by
    simp only [h.mem_up hm]
  exact if_congr this rfl rfl

/-- One iteration of `scanDown`, keeping the ready nodes of one task only. -/
def scanStep [DecidableEq T] (g : DGraph N T K) (t : T) (b : RS N × List N) (m : N) : RS N × List N :=
  if (addToBoundary g b.1 m).1 then ((addToBoundary g b.1 m).2, b.2)
  else if (∀ u ∈ g.up m, u ∈ b.1.surface) ∧ g.task m = t then (b.1, b.2 ++ [m])
  else (b.1, b.2)

theorem scanDown_fold [DecidableEq T] (t : T) : ∀ (ms : List N) (rs : RS N) (ready : List N),
    ((scanDown g ms rs ready).2, (scanDown g ms rs ready).1.filter (fun x => g.task x = t)) =
      ms.foldl (scanStep g t) (rs, ready.filter (fun x => g.task x = t))
  | [], rs, ready => rfl
  | m :: ms, rs, ready => by
    simp only [scanDown, List.foldl_cons]
    rcases hadd : addToBoundary g rs m with ⟨_ | _, rs'⟩
    · have hrs : rs' = rs := (addToBoundary_false hadd).2
      subst hrs
      simp only
      by_cases hall : ∀ u ∈ g.up m, u ∈ rs'.surface
      · rw [if_pos hall, scanDown_fold t ms rs' (ready ++ [m])]
        congr 1
        unfold scanStep
        simp only [hadd, Bool.false_eq_true, if_false]
        by_cases ht : g.task m = t
        · rw [if_pos ⟨hall, ht⟩, List.filter_append, List.filter_cons, if_pos (by simpa using ht), List.filter_nil]
        · rw [if_neg (fun h => ht h.2), List.filter_append, List.filter_cons, if_neg (by simpa using ht),
            List.filter_nil, List.append_nil]
      · rw [if_neg hall, scanDown_fold t ms rs' ready]
        congr 1
        unfold scanStep
        simp only [hadd, Bool.false_eq_true, if_false]
        rw [if_neg (fun h => hall h.1)]
    · simp only
      rw [scanDown_fold t ms rs' ready]
      congr 1
      unfold scanStep
      simp only [hadd, if_true]

theorem add_bool (rs : RS N) (m : N) :
    (addToBoundary g rs m).1 = true ↔ m ∉ rs.boundary ∧ ∃ u ∈ g.up m, u ∈ rs.boundary := by
  unfold addToBoundary
  split
  · next h => simpa using h
  · next h => simpa using h

theorem add_bool_other (rs : RS N) {x y : N} (hne : x ≠ y) (hl : ¬ Linked g x y) :
    (addToBoundary g (addToBoundary g rs x).2 y).1 = (addToBoundary g rs y).1 := by
  rw [Bool.eq_iff_iff, add_bool, add_bool]
  have hxy : x ∉ g.up y := fun h => hl (Or.inl h)
  simp only [add_mem]
  constructor
  · rintro ⟨h1, u, hu, h2 | ⟨rfl, _⟩⟩
    · exact ⟨fun h => h1 (Or.inl h), u, hu, h2⟩
    · exact absurd hu hxy
  · rintro ⟨h1, u, hu, h2⟩
    refine ⟨?_, u, hu, Or.inl h2⟩
    rintro (h | ⟨h, _⟩)
    · exact h1 h
    · exact hne h.symm

theorem add_same {rs : RS N} {m : N} (h : (addToBoundary g rs m).1 = false) : (addToBoundary g rs m).2 = rs := by
  rcases hadd : addToBoundary g rs m with ⟨_ | _, rs'⟩
  · exact (addToBoundary_false hadd).2
  · rw [hadd] at h; cases h

theorem scanStep_fst [DecidableEq T] (t : T) (b : RS N × List N) (m : N) :
    (scanStep g t b m).1 = (addToBoundary g b.1 m).2 := by
  unfold scanStep
  by_cases h : (addToBoundary g b.1 m).1 = true
  · rw [if_pos h]
  · rw [if_neg h, add_same (by simpa using h)]
    split <;> rfl

/-- What one iteration of `scanDown` appends. -/
def appended [DecidableEq T] (g : DGraph N T K) (t : T) (rs : RS N) (m : N) : List N :=
  if (addToBoundary g rs m).1 then []
  else if (∀ u ∈ g.up m, u ∈ rs.surface) ∧ g.task m = t then [m] else []

theorem scanStep_snd [DecidableEq T] (t : T) (b : RS N × List N) (m : N) :
    (scanStep g t b m).2 = b.2 ++ appended g t b.1 m := by
  unfold scanStep appended
  by_cases h : (addToBoundary g b.1 m).1 = true
  · simp only [h, if_true, List.append_nil]
  · simp only [h, if_false, Bool.false_eq_true]
    split <;> simp

theorem appended_other [DecidableEq T] (t : T) (rs : RS N) {x y : N} (hne : x ≠ y) (hl : ¬ Linked g x y) :
    appended g t (addToBoundary g rs x).2 y = appended g t rs y := by
  unfold appended
  rw [add_bool_other rs hne hl, add_surface]

theorem appended_task [DecidableEq T] {t : T} {rs : RS N} {m : N} (h : g.task m ≠ t) : appended g t rs m = [] := by
  unfold appended
  split
  · rfl
  · rw [if_neg (fun k => h k.2)]

theorem scanStep_comm [DecidableEq T] (t : T) (b : RS N × List N) {x y : N} (hne : x ≠ y)
    (hl : ¬ (Linked g x y ∨ g.task x = g.task y)) :
    scanStep g t (scanStep g t b x) y = scanStep g t (scanStep g t b y) x := by
  have h1 : ¬ Linked g x y := fun h => hl (Or.inl h)
  have h1' : ¬ Linked g y x := fun h => h1 (Or.symm h)
  have h2 : g.task x ≠ g.task y := fun h => hl (Or.inr h)
  refine Prod.ext ?_ ?_
  · simp only [scanStep_fst]
    exact add_comm b.1 h1
  · simp only [scanStep_snd, scanStep_fst, appended_other t b.1 hne h1, appended_other t b.1 (Ne.symm hne) h1']
    by_cases hx : g.task x = t
    · rw [appended_task (m := y) (fun h => h2 (hx.trans h.symm))]; simp
    · rw [appended_task hx]; simp

theorem scanStep_shuffled [DecidableEq T] (h : Shuffled g g') (t : T) {m : N} (hm : m ∈ g.nodes) (b : RS N × List N) :
    scanStep g' t b m = scanStep g t b m := by
  refine Prod.ext ?_ ?_
  · rw [scanStep_fst, scanStep_fst, add_shuffled h hm]
  · rw [scanStep_snd, scanStep_snd]
    unfold appended
    rw [add_shuffled h hm, h.task]
    congr 1
    have : ((∀ u ∈ g'.up m, u ∈ b.1.surface) ∧ g.task m = t) ↔ ((∀ u ∈ g.up m, u ∈ b.1.surface) ∧ g.task m = t) := by
      simp only [h.mem_up hm]
    rw [if_congr this rfl rfl]

theorem scanDown_reordered [DecidableEq T] (h : Reordered g g') (hg : g.OK) {n : N} (hn : n ∈ g.nodes) (rs : RS N) :
    (scanDown g' (g'.down n) rs []).2 = (scanDown g (g.down n) rs []).2 ∧
    ∀ t, (scanDown g' (g'.down n) rs []).1.filter (fun x => g.task x = t) =
      (scanDown g (g.down n) rs []).1.filter (fun x => g.task x = t) := by
  have key : ∀ t, ((scanDown g' (g'.down n) rs []).2, (scanDown g' (g'.down n) rs []).1.filter (fun x => g.task x = t)) =
      ((scanDown g (g.down n) rs []).2, (scanDown g (g.down n) rs []).1.filter (fun x => g.task x = t)) := by
    intro t
    have e0 := scanDown_fold (g := g') t (g'.down n) rs []
    rw [h.task] at e0
    rw [e0, scanDown_fold (g := g) t (g.down n) rs []]
    have e1 : ∀ (l : List N) (b : RS N × List N), (∀ u ∈ l, u ∈ g.nodes) →
        l.foldl (scanStep g' t) b = l.foldl (scanStep g t) b := by
      intro l
      induction l with
      | nil => intro _ _; rfl
      | cons u l ih =>
        intro b hl
        rw [List.foldl_cons, List.foldl_cons, scanStep_shuffled h.toShuffled t (hl u List.mem_cons_self),
          ih _ (fun v hv => hl v (List.mem_cons_of_mem _ hv))]
    rw [e1 _ _ (fun u hu => hg.down_mem n hn u ((h.mem_down hn).1 hu))]
    exact (foldl_reorder _ (fun x y => Linked g x y ∨ g.task x = g.task y) (fun _ _ => True)
      (fun _ _ _ _ _ _ => trivial) (fun b x y hne _ _ hl => scanStep_comm t b hne hl) _ _ (h.down n hn)
      (hg.down_nodup n hn) (fun x y hd => hd.elim (h.linked_down n hn x y) (h.task_down n hn x y)) _
      (fun _ _ => trivial)).symm
  exact ⟨(Prod.ext_iff.1 (key (g.task n))).1, fun t => (Prod.ext_iff.1 (key t)).2⟩

/-! ## The loop of `mark_failure` -/

/-- Nodes reached from `n` through nodes that were not on the boundary. -/
inductive Reached (g : DGraph N T K) (b0 : Finset N) (n : N) : N → Prop where
  | first {x : N} : x ∈ g.down n → x ∉ b0 → Reached g b0 n x
  | next {y x : N} : Reached g b0 n y → x ∈ g.down y → x ∉ b0 → Reached g b0 n x

omit [DecidableEq N] in
theorem reached_node (hg : g.OK) {b0 : Finset N} {n x : N} (hn : n ∈ g.nodes) (h : Reached g b0 n x) : x ∈ g.nodes := by
  induction h with
  | first h _ => exact hg.down_mem n hn _ h
  | next _ h _ ih => exact hg.down_mem _ ih _ h

omit [DecidableEq N] in
theorem reached_shuffled (h : Shuffled g g') (hg : g.OK) {b0 : Finset N} {n x : N} (hn : n ∈ g.nodes) :
    Reached g' b0 n x ↔ Reached g b0 n x := by
  constructor
  · intro hr
    induction hr with
    | first h1 h2 => exact .first ((h.mem_down hn).1 h1) h2
    | next _ h1 h2 ih => exact .next ih ((h.mem_down (reached_node hg hn ih)).1 h1) h2
  · intro hr
    induction hr with
    | first h1 h2 => exact .first ((h.mem_down hn).2 h1) h2
    | next h0 h1 h2 ih => exact .next ih ((h.mem_down (reached_node hg hn h0)).2 h1) h2

theorem orphanLoop_exact (hg : g.OK) {n : N} (hn : n ∈ g.nodes) (pick : Nat → Finset N → N) (b0 : Finset N) (hnb : n ∈ b0) :
    ∀ (fuel k : Nat) (work : Finset N) (rs : RS N) (orphans : Finset N) (o : Finset N) (rs' : RS N),
      (∀ x, x ∈ rs.boundary ↔ x ∈ b0 ∨ x ∈ orphans) → (∀ x ∈ orphans, Reached g b0 n x) →
      (∀ x ∈ work, x ∈ g.down n ∨ ∃ y ∈ orphans, x ∈ g.down y) →
      (∀ x, (x ∈ g.down n ∨ ∃ y ∈ orphans, x ∈ g.down y) → x ∈ b0 ∨ x ∈ orphans ∨ x ∈ work) →
      orphanLoop g pick fuel k work rs orphans = .ok (o, rs') →
      (∀ x, x ∈ o ↔ Reached g b0 n x) ∧ rs'.surface = rs.surface ∧
        ∀ x, x ∈ rs'.boundary ↔ x ∈ b0 ∨ Reached g b0 n x
  | 0, _, _, _, _, _, _, _, _, _, _, he => by simp [orphanLoop] at he
  | fuel + 1, k, work, rs, orphans, o, rs', h1, h2, h3, h4, he => by
    unfold orphanLoop at he
    by_cases hw : work = ∅
    · rw [if_pos hw] at he
      cases he
      subst hw
      have hall : ∀ x, x ∈ orphans ↔ Reached g b0 n x := by
        refine fun x => ⟨h2 x, fun hr => ?_⟩
        induction hr with
        | first a b => 
          rcases h4 _ (Or.inl a) with h | h | h
          · exact absurd h b
          · exact h
          · simp at h
        | next _ a b ih =>
          rcases h4 _ (Or.inr ⟨_, ih, a⟩) with h | h | h
          · exact absurd h b
          · exact h
          · simp at h
      exact ⟨hall, rfl, fun x => by rw [h1 x, hall x]⟩
    · rw [if_neg hw] at he
      generalize hmm : pick k work = m at he
      simp only at he
      by_cases hm : m ∈ work
      · simp only [not_not.2 hm, if_false] at he
        have hup : ∃ u ∈ g.up m, u ∈ rs.boundary := by
          rcases h3 m hm with h | ⟨y, hy, h⟩
          · exact ⟨n, (hg.dual n hn m (hg.down_mem n hn m h)).1 h, (h1 n).2 (Or.inl hnb)⟩
          · have hyn := reached_node hg hn (h2 y hy)
            exact ⟨y, (hg.dual y hyn m (hg.down_mem y hyn m h)).1 h, (h1 y).2 (Or.inr hy)⟩
        rcases hadd : addToBoundary g rs m with ⟨_ | _, rs1⟩
        · rw [hadd] at he
          have hmb : m ∈ rs.boundary := by
            by_contra hnm
            unfold addToBoundary at hadd
            rw [if_pos ⟨hnm, hup⟩] at hadd
            simp at hadd
          have hrs : rs1 = rs := (addToBoundary_false hadd).2
          subst hrs
          refine orphanLoop_exact hg hn pick b0 hnb fuel (k + 1) _ _ _ o rs' h1 h2
            (fun x hx => h3 x (Finset.mem_of_mem_erase hx)) (fun x hx => ?_) he
          rcases h4 x hx with h | h | h
          · exact Or.inl h
          · exact Or.inr (Or.inl h)
          · by_cases hxm : x = m
            · subst hxm
              rcases (h1 x).1 hmb with h | h
              · exact Or.inl h
              · exact Or.inr (Or.inl h)
            · exact Or.inr (Or.inr (Finset.mem_erase.2 ⟨hxm, h⟩))
        · rw [hadd] at he
          have hmb : m ∉ rs.boundary := by
            intro hb
            unfold addToBoundary at hadd
            rw [if_neg (fun h => h.1 hb)] at hadd
            simp at hadd
          have e2 : rs1 = (addToBoundary g rs m).2 := by rw [hadd]
          have hmr : Reached g b0 n m := by
            have hnb0 : m ∉ b0 := fun h => hmb ((h1 m).2 (Or.inl h))
            rcases h3 m hm with h | ⟨y, hy, h⟩
            · exact .first h hnb0
            · exact .next (h2 y hy) h hnb0
          suffices hsuf : (∀ x, x ∈ o ↔ Reached g b0 n x) ∧ rs'.surface = rs1.surface ∧
              ∀ x, x ∈ rs'.boundary ↔ x ∈ b0 ∨ Reached g b0 n x by
            refine ⟨hsuf.1, ?_, hsuf.2.2⟩
            rw [hsuf.2.1, e2, add_surface]
          refine orphanLoop_exact hg hn pick b0 hnb fuel (k + 1) _ _ _ o rs' (fun x => ?_)
            (fun x hx => ?_) (fun x hx => ?_) (fun x hx => ?_) he
          · rw [e2, add_mem, h1 x, Finset.mem_insert]
            constructor
            · rintro ((h | h) | ⟨h, _⟩)
              · exact Or.inl h
              · exact Or.inr (Or.inr h)
              · exact Or.inr (Or.inl h)
            · rintro (h | h | h)
              · exact Or.inl (Or.inl h)
              · exact Or.inr ⟨h, hup⟩
              · exact Or.inl (Or.inr h)
          · rcases Finset.mem_insert.1 hx with rfl | h
            · exact hmr
            · exact h2 x h
          · rcases Finset.mem_union.1 hx with h | h
            · rcases h3 x (Finset.mem_of_mem_erase h) with h | ⟨y, hy, h⟩
              · exact Or.inl h
              · exact Or.inr ⟨y, Finset.mem_insert_of_mem hy, h⟩
            · exact Or.inr ⟨m, Finset.mem_insert_self _ _, List.mem_toFinset.1 (Finset.mem_sdiff.1 h).1⟩
          · have hcase : x ∈ b0 ∨ x ∈ orphans ∨ x ∈ work ∨ x ∈ g.down m := by
              rcases hx with h | ⟨y, hy, h⟩
              · rcases h4 x (Or.inl h) with h | h | h
                · exact Or.inl h
                · exact Or.inr (Or.inl h)
                · exact Or.inr (Or.inr (Or.inl h))
              · rcases Finset.mem_insert.1 hy with rfl | hy
                · exact Or.inr (Or.inr (Or.inr h))
                · rcases h4 x (Or.inr ⟨y, hy, h⟩) with h | h | h
                  · exact Or.inl h
                  · exact Or.inr (Or.inl h)
                  · exact Or.inr (Or.inr (Or.inl h))
            by_cases hxm : x = m
            · exact Or.inr (Or.inl (hxm ▸ Finset.mem_insert_self _ _))
            · rcases hcase with h | h | h | h
              · exact Or.inl h
              · exact Or.inr (Or.inl (Finset.mem_insert_of_mem h))
              · exact Or.inr (Or.inr (Finset.mem_union_left _ (Finset.mem_erase.2 ⟨hxm, h⟩)))
              · by_cases hxo : x ∈ orphans
                · exact Or.inr (Or.inl (Finset.mem_insert_of_mem hxo))
                · exact Or.inr (Or.inr (Finset.mem_union_right _ (Finset.mem_sdiff.2 ⟨List.mem_toFinset.2 h, hxo⟩)))
      · simp [hm] at he

omit [DecidableEq N] in
theorem isEmpty_perm {l l' : List N} (h : l.Perm l') : l'.isEmpty = l.isEmpty := by
  rw [Bool.eq_iff_iff, List.isEmpty_iff, List.isEmpty_iff]
  constructor
  · rintro rfl; exact List.perm_nil.1 h
  · rintro rfl; exact List.nil_perm.1 h

/-- `mark_success` on a reordered graph: the same sets, and the same ready nodes for every task. -/
theorem markSuccess_reordered [DecidableEq T] (h : Reordered g g') (hg : g.OK) {n : N} (hn : n ∈ g.nodes) (rs : RS N) :
    (∃ e, markSuccess g rs n = .error e ∧ markSuccess g' rs n = .error e) ∨
    ∃ ready ready' rs', markSuccess g rs n = .ok (ready, rs') ∧ markSuccess g' rs n = .ok (ready', rs') ∧
      ∀ t, ready'.filter (fun x => g.task x = t) = ready.filter (fun x => g.task x = t) := by
  have hup : (∀ u ∈ g'.up n, u ∈ rs.surface) ↔ ∀ u ∈ g.up n, u ∈ rs.surface := by simp only [h.mem_up hn]
  unfold markSuccess
  by_cases hs : ∀ u ∈ g.up n, u ∈ rs.surface
  · have hs' := hup.2 hs
    simp only [if_neg (not_not.2 hs), if_neg (not_not.2 hs')]
    obtain ⟨s1, s2⟩ := scanDown_reordered h hg hn { rs with surface := insert n rs.surface }
    rcases e1 : scanDown g (g.down n) { rs with surface := insert n rs.surface } [] with ⟨ready, rs2⟩
    rcases e2 : scanDown g' (g'.down n) { rs with surface := insert n rs.surface } [] with ⟨ready', rs2'⟩
    rw [e1, e2] at s1 s2
    change rs2' = rs2 at s1
    subst s1
    have hsurf : rs2'.surface = insert n rs.surface := by
      have := scanDown_fold (g := g) (g.task n) (g.down n) { rs with surface := insert n rs.surface } []
      rw [e1] at this
      have hfold : ∀ (l : List N) (b : RS N × List N), (l.foldl (scanStep g (g.task n)) b).1.surface = b.1.surface := by
        intro l
        induction l with
        | nil => intro _; rfl
        | cons u l ih => intro b; rw [List.foldl_cons, ih, scanStep_fst, add_surface]
      have e := hfold (g.down n) ({ rs with surface := insert n rs.surface },
        ([] : List N).filter (fun x => g.task x = g.task n))
      rw [← this] at e
      exact e
    simp only [cleanUps_reordered h hg hn (rs := rs2')
      (fun u hu => by rw [hsurf]; exact Finset.mem_insert_of_mem (hs u hu)), isEmpty_perm (h.down n hn)]
    rcases cleanUps g (g.up n) rs2' with e | rs3
    · exact Or.inl ⟨e, rfl, rfl⟩
    · simp only
      by_cases he : (g.down n).isEmpty = true
      · simp only [he, if_true]
        rcases setRemove rs3.surface n with e | s
        · exact Or.inl ⟨e, rfl, rfl⟩
        · exact Or.inr ⟨ready, ready', _, rfl, rfl, s2⟩
      · simp only [he, if_false, Bool.false_eq_true]
        exact Or.inr ⟨ready, ready', _, rfl, rfl, s2⟩
  · have hs' := fun k => hs (hup.1 k)
    rw [if_pos hs, if_pos hs']
    exact Or.inl ⟨_, rfl, rfl⟩

/-- `mark_failure` on a reordered graph, with any two ways to pop. -/
theorem markFailure_reordered (h : Reordered g g') (hg : g.OK) {n : N} (hn : n ∈ g.nodes) {rs : RS N}
    {pick pick' : Nat → Finset N → N} {o o' : Finset N} {r r' : RS N} (h1 : markFailure g pick rs n = .ok (o, r))
    (h2 : markFailure g' pick' rs n = .ok (o', r')) : o' = o ∧ r' = r := by
  have hg' := h.toShuffled.ok hg
  have hn' : n ∈ g'.nodes := by rw [h.nodes]; exact hn
  have start : ∀ {g : DGraph N T K} {pick : Nat → Finset N → N} {o : Finset N} {r : RS N}, g.OK → n ∈ g.nodes →
      orphanLoop g pick (orphanFuel g) 0 (g.down n).toFinset { rs with boundary := insert n rs.boundary } ∅ = .ok (o, r) →
      (∀ x, x ∈ o ↔ Reached g (insert n rs.boundary) n x) ∧ r.surface = rs.surface ∧
        ∀ x, x ∈ r.boundary ↔ x ∈ insert n rs.boundary ∨ Reached g (insert n rs.boundary) n x := by
    intro g pick o r hg hn he
    refine orphanLoop_exact hg hn pick _ (Finset.mem_insert_self _ _) _ _ _ { rs with boundary := insert n rs.boundary } _
      o r (fun x => ?_) (fun x hx => ?_)
      (fun x hx => ?_) (fun x hx => ?_) he
    · simp
    · simp at hx
    · exact Or.inl (List.mem_toFinset.1 hx)
    · rcases hx with hx | ⟨y, hy, _⟩
      · exact Or.inr (Or.inr (List.mem_toFinset.2 hx))
      · simp at hy
  unfold markFailure at h1 h2
  simp only at h1 h2
  split at h1
  · cases h1
  · next hs =>
    split at h2
    · cases h2
    · rcases l1 : orphanLoop g pick (orphanFuel g) 0 (g.down n).toFinset
        { rs with boundary := insert n rs.boundary } ∅ with e | ⟨a, b⟩
      · rw [l1] at h1; cases h1
      rcases l2 : orphanLoop g' pick' (orphanFuel g') 0 (g'.down n).toFinset
        { rs with boundary := insert n rs.boundary } ∅ with e | ⟨a', b'⟩
      · rw [l2] at h2; cases h2
      rw [l1] at h1
      rw [l2] at h2
      simp only at h1 h2
      obtain ⟨p1, p2, p3⟩ := start hg hn l1
      obtain ⟨q1, q2, q3⟩ := start hg' hn' l2
      have ha : a' = a := by
        ext x
        rw [p1, q1, reached_shuffled h.toShuffled hg hn]
      have hb : b' = b := by
        refine RS.ext (q2.trans p2.symm) ?_
        ext x
        rw [p3, q3, reached_shuffled h.toShuffled hg hn]
      subst ha hb
      rw [cleanUps_reordered h hg hn (rs := b') (fun u hu => by rw [p2]; exact not_not.1 hs u hu)] at h2
      rw [isEmpty_perm (h.up n hn)] at h2
      rw [h1] at h2
      cases h2
      exact ⟨rfl, rfl⟩

end RS
end Verif
