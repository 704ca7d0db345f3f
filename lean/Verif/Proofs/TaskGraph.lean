import Verif.Spec.TaskTree

/-! # Invariants of `__add_task` -/

namespace Verif.TaskGraph

open Verif.Spec

variable {α : Type}

/-- The two link dicts describe the same relation, between recorded tasks. -/
structure Inv (G : TaskGraph α) : Prop where
  nodup : G.ids.Nodup
  dual : ∀ x y, y ∈ G.downs x ↔ x ∈ G.ups y
  mem : ∀ x y, x ∈ G.ups y → x ∈ G.ids ∧ y ∈ G.ids
  ups_nodup : ∀ y, (G.ups y).Nodup
  downs_nodup : ∀ x, (G.downs x).Nodup

/-- Task `x` is recorded completely: its links are those of the recorded object. -/
def Complete (G : TaskGraph α) (x : Nat) : Prop :=
  ∃ t, G.taskMap x = some t ∧ t.id = x ∧ ∀ a, a ∈ G.ups x ↔ ∃ u ∈ t.requires, u.id = a

theorem inv_empty : (empty : TaskGraph α).Inv :=
  ⟨List.nodup_nil, by simp [empty], by simp [empty], by simp [empty], by simp [empty]⟩

theorem mem_setAdd (s : List Nat) (x y : Nat) : y ∈ setAdd s x ↔ y ∈ s ∨ y = x := by
  unfold setAdd
  split
  · constructor
    · exact Or.inl
    · rintro (h | rfl)
      · exact h
      · assumption
  · simp

theorem nodup_setAdd {s : List Nat} (x : Nat) (h : s.Nodup) : (setAdd s x).Nodup := by
  unfold setAdd
  split
  · exact h
  · rename_i hx
    exact List.Nodup.append h (List.nodup_singleton x) (by simpa using hx)

theorem inv_record {G : TaskGraph α} (h : G.Inv) {t : TTree α} (ht : t.id ∉ G.ids) :
    (G.record t).Inv := by
  refine ⟨?_, ?_, ?_, ?_, ?_⟩
  · exact List.Nodup.append h.nodup (List.nodup_singleton _) (by simpa using ht)
  · intro x y
    simp only [record]
    by_cases hx : x = t.id
    · by_cases hy : y = t.id
      · simp [hx, hy]
      · simp only [hx, hy, if_true, if_false, List.not_mem_nil, false_iff]
        exact fun h' => ht (h.mem _ _ h').1
    · by_cases hy : y = t.id
      · simp only [hx, hy, if_true, if_false, List.not_mem_nil, iff_false]
        intro h'
        exact ht (h.mem _ _ ((h.dual _ _).1 h')).2
      · simp only [hx, hy, if_false]
        exact h.dual x y
  · intro x y
    simp only [record]
    split
    · intro h'; cases h'
    · intro h'
      exact ⟨List.mem_append_left _ (h.mem _ _ h').1, List.mem_append_left _ (h.mem _ _ h').2⟩
  · intro y
    simp only [record]
    split
    · exact List.nodup_nil
    · exact h.ups_nodup y
  · intro y
    simp only [record]
    split
    · exact List.nodup_nil
    · exact h.downs_nodup y

theorem inv_link {G : TaskGraph α} (h : G.Inv) {b a : Nat} (hb : b ∈ G.ids) (ha : a ∈ G.ids) :
    (G.link b a).Inv := by
  refine ⟨h.nodup, ?_, ?_, ?_, ?_⟩
  · intro x y
    simp only [link]
    have hd := h.dual x y
    split <;> split <;> rename_i hx hy <;> simp only [mem_setAdd, hd]
    · constructor <;> rintro (h1 | h1)
      · exact Or.inl h1
      · exact Or.inr hx
      · exact Or.inl h1
      · exact Or.inr hy
    · constructor
      · rintro (h1 | h1)
        · exact h1
        · exact absurd h1 hy
      · exact Or.inl
    · constructor
      · exact Or.inl
      · rintro (h1 | h1)
        · exact h1
        · exact absurd h1 hx
  · intro x y
    simp only [link]
    split
    · rename_i hy
      rw [mem_setAdd]
      rintro (h1 | rfl)
      · exact h.mem _ _ h1
      · exact ⟨ha, hy ▸ hb⟩
    · exact h.mem x y
  · intro y
    simp only [link]
    split
    · exact nodup_setAdd _ (h.ups_nodup y)
    · exact h.ups_nodup y
  · intro y
    simp only [link]
    split
    · exact nodup_setAdd _ (h.downs_nodup y)
    · exact h.downs_nodup y

/-- What a call of `__add_task` (or of its loop) does: it keeps the invariant and all earlier
records except the upstream links of the tasks in `open_`, and completes the new records. -/
structure Ext (G G' : TaskGraph α) (open_ : Nat → Prop) (P : TTree α → Prop) : Prop where
  inv : G'.Inv
  sub : ∀ x ∈ G.ids, x ∈ G'.ids
  map : ∀ x ∈ G.ids, G'.taskMap x = G.taskMap x
  ups : ∀ x ∈ G.ids, ¬ open_ x → G'.ups x = G.ups x
  new : ∀ x ∈ G'.ids, x ∉ G.ids → Complete G' x ∧ ∃ t, G'.taskMap x = some t ∧ P t

mutual
theorem addTask_ext (P : TTree α → Prop) (hP : ∀ t, P t → ∀ u ∈ t.requires, P u) :
    ∀ (t : TTree α) (G : TaskGraph α), G.Inv → P t →
      Ext G (addTask G t) (fun _ => False) P ∧ t.id ∈ (addTask G t).ids
  | .node i a us, G, h, ht => by
    unfold addTask
    split
    · rename_i hi
      exact ⟨⟨h, fun _ hx => hx, fun _ _ => rfl, fun _ _ _ => rfl,
        fun x hx hn => absurd hx hn⟩, hi⟩
    · rename_i hi
      have h1 := inv_record h (t := .node i a us) hi
      have hiG : i ∈ (G.record (.node i a us)).ids := by simp [record, TTree.id]
      obtain ⟨e, hu⟩ := addUps_ext P hP us (G.record (.node i a us)) i h1 hiG
        (fun u hu => hP _ ht u hu)
      have hold : ∀ x ∈ G.ids, x ∈ (G.record (.node i a us)).ids := fun x hx => by
        simp [record, hx]
      have hne : ∀ x ∈ G.ids, x ≠ i := fun x hx hxi => hi (hxi ▸ hx)
      refine ⟨⟨e.inv, fun x hx => e.sub x (hold x hx), ?_, ?_, ?_⟩, e.sub i hiG⟩
      · intro x hx
        rw [e.map x (hold x hx)]
        simp [record, TTree.id, hne x hx]
      · intro x hx _
        rw [e.ups x (hold x hx) (hne x hx)]
        simp [record, TTree.id, hne x hx]
      · intro x hx hn
        by_cases hxi : x = i
        · subst hxi
          have hm : (addUps (G.record (.node x a us)) x us).taskMap x = some (.node x a us) := by
            rw [e.map x hiG]; simp [record, TTree.id]
          refine ⟨⟨.node x a us, hm, rfl, ?_⟩, _, hm, ht⟩
          intro b
          rw [hu b]
          simp [record, TTree.id, TTree.requires]
        · refine e.new x hx ?_
          simp only [record, List.mem_append, List.mem_singleton, TTree.id, not_or]
          exact ⟨hn, hxi⟩
theorem addUps_ext (P : TTree α → Prop) (hP : ∀ t, P t → ∀ u ∈ t.requires, P u) :
    ∀ (us : List (TTree α)) (G : TaskGraph α) (i : Nat), G.Inv → i ∈ G.ids →
      (∀ u ∈ us, P u) → Ext G (addUps G i us) (fun x => x = i) P ∧
      ∀ b, b ∈ (addUps G i us).ups i ↔ b ∈ G.ups i ∨ ∃ u ∈ us, u.id = b
  | [], G, i, h, hi, _ => by
    unfold addUps
    exact ⟨⟨h, fun _ hx => hx, fun _ _ => rfl, fun _ _ _ => rfl,
        fun x hx hn => absurd hx hn⟩, by simp⟩
  | u :: us, G, i, h, hi, hus => by
    unfold addUps
    obtain ⟨e1, hu1⟩ := addTask_ext P hP u G h (hus u List.mem_cons_self)
    have h2 := inv_link e1.inv (e1.sub i hi) hu1
    obtain ⟨e2, hu2⟩ := addUps_ext P hP us ((addTask G u).link i u.id) i h2 (e1.sub i hi)
      (fun v hv => hus v (List.mem_cons_of_mem _ hv))
    refine ⟨⟨e2.inv, fun x hx => e2.sub x (e1.sub x hx), ?_, ?_, ?_⟩, ?_⟩
    · intro x hx
      rw [e2.map x (e1.sub x hx)]
      exact e1.map x hx
    · intro x hx hne
      rw [e2.ups x (e1.sub x hx) hne]
      simp only [link, if_neg hne]
      exact e1.ups x hx (fun hf => hf)
    · intro x hx hn
      by_cases hx1 : x ∈ (addTask G u).ids
      · obtain ⟨⟨t, ht1, ht2, ht3⟩, t', ht', hPt'⟩ := e1.new x hx1 hn
        have hxi : x ≠ i := fun h' => hn (h' ▸ hi)
        have hm := e2.map x hx1
        have hm' : (addUps ((addTask G u).link i u.id) i us).taskMap x = some t := by
          rw [hm]; exact ht1
        refine ⟨⟨t, hm', ht2, ?_⟩, t', ?_, hPt'⟩
        · intro a
          rw [e2.ups x hx1 hxi]
          simp only [link, if_neg hxi]
          exact ht3 a
        · rw [hm]; exact ht'
      · exact e2.new x hx hx1
    · intro b
      rw [hu2 b]
      simp only [link, if_true, mem_setAdd]
      rw [e1.ups i hi (fun hf => hf)]
      simp only [List.mem_cons, exists_eq_or_imp]
      constructor
      · rintro ((h1 | h1) | h1)
        · exact Or.inl h1
        · exact Or.inr (Or.inl h1.symm)
        · exact Or.inr (Or.inr h1)
      · rintro (h1 | h1 | h1)
        · exact Or.inl (Or.inl h1)
        · exact Or.inl (Or.inr h1.symm)
        · exact Or.inr h1
end

theorem fold_ext (P : TTree α → Prop) (hP : ∀ t, P t → ∀ u ∈ t.requires, P u) :
    ∀ (ts : List (TTree α)) (G : TaskGraph α), G.Inv → (∀ t ∈ ts, P t) →
      Ext G (ts.foldl addTask G) (fun _ => False) P ∧
      ∀ t ∈ ts, t.id ∈ (ts.foldl addTask G).ids
  | [], G, h, _ => ⟨⟨h, fun _ hx => hx, fun _ _ => rfl, fun _ _ _ => rfl,
        fun x hx hn => absurd hx hn⟩, by simp⟩
  | t :: ts, G, h, hts => by
    rw [List.foldl_cons]
    obtain ⟨e1, h1⟩ := addTask_ext P hP t G h (hts t List.mem_cons_self)
    obtain ⟨e2, h2⟩ := fold_ext P hP ts _ e1.inv (fun u hu => hts u (List.mem_cons_of_mem _ hu))
    refine ⟨⟨e2.inv, fun x hx => e2.sub x (e1.sub x hx), ?_, ?_, ?_⟩, ?_⟩
    · intro x hx; rw [e2.map x (e1.sub x hx), e1.map x hx]
    · intro x hx hf; rw [e2.ups x (e1.sub x hx) hf, e1.ups x hx hf]
    · intro x hx hn
      by_cases hx1 : x ∈ (addTask G t).ids
      · obtain ⟨⟨t', ht1, ht2, ht3⟩, t'', ht'', hPt''⟩ := e1.new x hx1 hn
        have hm := e2.map x hx1
        refine ⟨⟨t', by rw [hm]; exact ht1, ht2, ?_⟩, t'', by rw [hm]; exact ht'', hPt''⟩
        rw [e2.ups x hx1 (fun hf => hf)]
        exact ht3
      · exact e2.new x hx hx1
    · intro u hu
      rcases List.mem_cons.1 hu with rfl | hu
      · exact e2.sub _ h1
      · exact h2 u hu

theorem required_child {tasks : List (TTree α)} {t u : TTree α} (h : Required tasks t)
    (hu : u ∈ t.requires) : Required tasks u := by
  obtain ⟨s, hs, hst⟩ := h
  exact ⟨s, hs, hst.tail hu⟩

theorem build_ext (tasks : List (TTree α)) :
    Ext empty (build tasks) (fun _ => False) (Required tasks) ∧
      ∀ t ∈ tasks, t.id ∈ (build tasks).ids :=
  fold_ext _ (fun _ h _ hu => required_child h hu) tasks empty inv_empty
    (fun t ht => ⟨t, ht, Relation.ReflTransGen.refl⟩)

theorem build_inv (tasks : List (TTree α)) : (build tasks).Inv := (build_ext tasks).1.inv

/-- Every recorded task is one of the required task objects, with its id and its links. -/
theorem build_complete (tasks : List (TTree α)) {x : Nat} (hx : x ∈ (build tasks).ids) :
    ∃ t, (build tasks).taskMap x = some t ∧ t.id = x ∧ Required tasks t ∧
      ∀ a, a ∈ (build tasks).ups x ↔ ∃ u ∈ t.requires, u.id = a := by
  obtain ⟨⟨t, h1, h2, h3⟩, t', h4, h5⟩ := (build_ext tasks).1.new x hx (by simp [empty])
  rw [h1] at h4; cases h4
  exact ⟨t, h1, h2, h5, h3⟩

theorem build_closed (tasks : List (TTree α)) {x a : Nat} (h : a ∈ (build tasks).ups x) :
    a ∈ (build tasks).ids ∧ x ∈ (build tasks).ids := (build_inv tasks).mem a x h

theorem build_map (tasks : List (TTree α)) (hid : UniqueIds tasks) {s : TTree α}
    (hs : Required tasks s) : s.id ∈ (build tasks).ids ∧ (build tasks).taskMap s.id = some s := by
  have key : ∀ s, Required tasks s → s.id ∈ (build tasks).ids →
      (build tasks).taskMap s.id = some s := by
    intro s hs hm
    obtain ⟨t, h1, h2, h3, _⟩ := build_complete tasks hm
    rw [h1, hid t s h3 hs h2]
  have hmem : s.id ∈ (build tasks).ids := by
    obtain ⟨t, ht, hts⟩ := hs
    induction hts with
    | refl => exact (build_ext tasks).2 t ht
    | @tail b c hb hc ih =>
      obtain ⟨t', h1, h2, h3, h4⟩ := build_complete tasks ih
      have : t' = b := hid t' b h3 ⟨t, ht, hb⟩ h2
      subst this
      exact (build_closed tasks ((h4 c.id).2 ⟨c, hc, rfl⟩)).1
  exact ⟨hmem, key s hs hmem⟩

/-- A required task is smaller than the list it is in. -/
theorem sizes_pos (us : List (TTree α)) {u : TTree α} (hu : u ∈ us) :
    Convenience.size u ≤ Convenience.sizes us := by
  induction us with
  | nil => cases hu
  | cons v vs ih =>
    rcases List.mem_cons.1 hu with rfl | hu
    · simp [Convenience.sizes]
    · have := ih hu
      simp only [Convenience.sizes]
      omega

theorem size_child {t u : TTree α} (hu : u ∈ t.requires) :
    Convenience.size u < Convenience.size t := by
  cases t with
  | node i a us =>
    have := sizes_pos us (u := u) hu
    simp only [Convenience.size]
    omega

/-- The recorded task links are acyclic. -/
theorem build_acyclic (tasks : List (TTree α)) (hid : UniqueIds tasks) :
    ∃ rank : Nat → Nat, ∀ b a, a ∈ (build tasks).ups b → rank a < rank b := by
  refine ⟨fun x => match (build tasks).taskMap x with | some t => Convenience.size t | none => 0, ?_⟩
  intro b a hab
  obtain ⟨ha, hb⟩ := build_closed tasks hab
  obtain ⟨t, h1, h2, h3, h4⟩ := build_complete tasks hb
  obtain ⟨u, hu, rfl⟩ := (h4 a).1 hab
  have := (build_map tasks hid (required_child h3 hu)).2
  simp only [h1, this]
  exact size_child hu

mutual
theorem initTask_eq : ∀ (t : TTree α) (G : TaskGraph α),
    Scheduler.initTask G.ids t = (addTask G t).ids
  | .node i a us, G => by
    unfold addTask Scheduler.initTask
    split
    · rfl
    · exact initTasks_eq us (G.record (.node i a us)) i
theorem initTasks_eq : ∀ (us : List (TTree α)) (G : TaskGraph α) (i : Nat),
    Scheduler.initTasks G.ids us = (addUps G i us).ids
  | [], G, i => by unfold addUps Scheduler.initTasks; rfl
  | u :: us, G, i => by
    unfold addUps Scheduler.initTasks
    rw [initTask_eq u G]
    exact initTasks_eq us ((addTask G u).link i u.id) i
end

theorem initTasks_build (tasks : List (TTree α)) :
    Scheduler.initTasks [] tasks = (build tasks).ids := by
  have : ∀ (ts : List (TTree α)) (G : TaskGraph α),
      Scheduler.initTasks G.ids ts = (ts.foldl addTask G).ids := by
    intro ts
    induction ts with
    | nil => intro G; simp [Scheduler.initTasks]
    | cons t ts ih =>
      intro G
      rw [List.foldl_cons, ← ih]
      simp only [Scheduler.initTasks]
      rw [initTask_eq]
  exact this tasks empty

end Verif.TaskGraph

namespace Verif.Convenience

open Verif.Spec

variable {α : Type}

theorem sizes_append (xs ys : List (TTree α)) : sizes (xs ++ ys) = sizes xs + sizes ys := by
  induction xs with
  | nil => simp [sizes]
  | cons x xs ih => simp only [List.cons_append, sizes, ih]; omega

theorem flattenLoop_spec : ∀ (fuel : Nat) (q : List (TTree α)) (seen : List Nat)
    (acc : List (TTree α)), sizes q ≤ fuel → (∀ i, i ∈ seen ↔ ∃ t ∈ acc, t.id = i) →
    (acc.map TTree.id).Nodup →
    ∃ r, flattenLoop fuel q seen acc = .ok r ∧ (r.map TTree.id).Nodup ∧
      (∀ t ∈ acc, t ∈ r) ∧ (∀ t ∈ r, t ∈ acc ∨ Required q t) ∧
      ∀ s, Required q s → ∃ t ∈ r, t.id = s.id := by
  intro fuel
  induction fuel with
  | zero =>
    intro q seen acc hq hs hn
    cases q with
    | nil =>
      refine ⟨acc, rfl, hn, fun _ h => h, fun t h => Or.inl h, ?_⟩
      rintro s ⟨t, ht, _⟩; cases ht
    | cons t ts =>
      cases t
      simp only [sizes, size] at hq
      omega
  | succ fuel ih =>
    intro q seen acc hq hs hn
    cases q with
    | nil =>
      refine ⟨acc, rfl, hn, fun _ h => h, fun t h => Or.inl h, ?_⟩
      rintro s ⟨t, ht, _⟩; cases ht
    | cons t ts =>
      have hsz : sizes (ts ++ t.requires) ≤ fuel := by
        rw [sizes_append]
        cases t
        simp only [sizes, size] at hq
        simp only [TTree.requires]
        omega
      have hreq : ∀ s, Required (ts ++ t.requires) s → Required (t :: ts) s := by
        rintro s ⟨v, hv, hvs⟩
        rcases List.mem_append.1 hv with hv | hv
        · exact ⟨v, List.mem_cons_of_mem _ hv, hvs⟩
        · exact ⟨t, List.mem_cons_self, Relation.ReflTransGen.head hv hvs⟩
      have hreq' : ∀ s, Required (t :: ts) s → s = t ∨ Required (ts ++ t.requires) s := by
        rintro s ⟨v, hv, hvs⟩
        rcases List.mem_cons.1 hv with rfl | hv
        · rcases Relation.ReflTransGen.cases_head hvs with h | ⟨c, hc, hcs⟩
          · exact Or.inl h.symm
          · exact Or.inr ⟨c, List.mem_append_right _ hc, hcs⟩
        · exact Or.inr ⟨v, List.mem_append_left _ hv, hvs⟩
      simp only [flattenLoop]
      by_cases hid : t.id ∉ seen
      · rw [if_pos hid]
        obtain ⟨r, h1, h2, h3, h4, h5⟩ := ih (ts ++ t.requires) (t.id :: seen) (acc ++ [t]) hsz
          (by
            intro i
            simp only [List.mem_cons, hs, List.mem_append]
            constructor
            · rintro (rfl | ⟨v, hv, rfl⟩)
              · exact ⟨t, Or.inr (Or.inl rfl), rfl⟩
              · exact ⟨v, Or.inl hv, rfl⟩
            · rintro ⟨v, hv | hv | hv, rfl⟩
              · exact Or.inr ⟨v, hv, rfl⟩
              · exact Or.inl (by rw [hv])
              · cases hv)
          (by
            rw [List.map_append]
            refine List.Nodup.append hn (by simp) ?_
            intro i hi hi'
            simp only [List.map_cons, List.map_nil, List.mem_singleton] at hi'
            subst hi'
            obtain ⟨v, hv, hvi⟩ := List.mem_map.1 hi
            exact hid ((hs _).2 ⟨v, hv, hvi⟩))
        refine ⟨r, h1, h2, fun v hv => h3 v (List.mem_append_left _ hv), ?_, ?_⟩
        · intro v hv
          rcases h4 v hv with h | h
          · rcases List.mem_append.1 h with h | h
            · exact Or.inl h
            · right
              rw [List.mem_singleton] at h
              exact ⟨t, List.mem_cons_self, by rw [h]; exact Relation.ReflTransGen.refl⟩
          · exact Or.inr (hreq v h)
        · intro s hs'
          rcases hreq' s hs' with rfl | h
          · exact ⟨s, h3 s (by simp), rfl⟩
          · exact h5 s h
      · rw [if_neg hid]
        obtain ⟨r, h1, h2, h3, h4, h5⟩ := ih (ts ++ t.requires) seen acc hsz hs hn
        refine ⟨r, h1, h2, h3, ?_, ?_⟩
        · intro v hv
          rcases h4 v hv with h | h
          · exact Or.inl h
          · exact Or.inr (hreq v h)
        · intro s hs'
          rcases hreq' s hs' with rfl | h
          · obtain ⟨v, hv, hvi⟩ := (hs s.id).1 (not_not.1 hid)
            exact ⟨v, h3 v hv, hvi⟩
          · exact h5 s h

end Verif.Convenience
