import Verif.Spec.StarvedSpec

/-! # A graph in which nothing is starved

To a graph with starved blocks one block `none` is added, alone in its task, that comes before the starved blocks.  If
nobody asks for it, the scheduler does with the new graph what it does with the old one. -/

set_option linter.unusedSectionVars false

namespace Verif

open Spec

variable {N T K : Type} [DecidableEq N] [DecidableEq T] [DecidableEq K] {g : DGraph N T K}

instance (g : DGraph N T K) : DecidablePred (Starved g) := fun n => by unfold Starved; infer_instance

/-- The graph with an additional block. -/
def DGraph.fed (g : DGraph N T K) : DGraph (Option N) (Option T) (Option K) where
  up := fun n => match n with
    | none => []
    | some n => if Starved g n then [none] else (g.up n).map some
  down := fun n => match n with
    | none => (g.nodes.filter (fun n => Starved g n)).map some
    | some n => (g.down n).map some
  task := Option.map g.task
  key := Option.map g.key
  tasks := none :: g.tasks.map some
  total := fun t => match t with
    | none => 1
    | some t => g.total t
  rootTasks := none :: g.rootTasks.map some
  numRoots := fun t => match t with
    | none => 1
    | some t => g.numRoots t
  rootGen := fun t => match t with
    | none => [none]
    | some t => (g.rootGen t).map some
  maxRetries := fun t => match t with
    | none => 0
    | some t => g.maxRetries t
  nodes := none :: g.nodes.map some

theorem fed_up {n : N} (h : ¬ Starved g n) : g.fed.up (some n) = (g.up n).map some := by
  simp [DGraph.fed, h]

theorem fed_up_starved {n : N} (h : Starved g n) : g.fed.up (some n) = [none] := by
  simp [DGraph.fed, h]

theorem fed_down (n : N) : g.fed.down (some n) = (g.down n).map some := rfl

theorem mem_fed {n : N} : some n ∈ g.fed.nodes ↔ n ∈ g.nodes := by simp [DGraph.fed]

theorem mem_fed_up {a n : N} : some a ∈ g.fed.up (some n) ↔ a ∈ g.up n := by
  by_cases h : Starved g n
  · rw [fed_up_starved h, h.2.1]; simp
  · rw [fed_up h]; simp

theorem nodup_some {l : List N} (h : l.Nodup) : (l.map some).Nodup := h.map (Option.some_injective _)

theorem fed_ok (hg : g.Loose) : g.fed.OK where
  nodes_nodup := by
    show (none :: g.nodes.map some).Nodup
    rw [List.nodup_cons]
    exact ⟨by simp, nodup_some hg.nodes_nodup⟩
  up_mem := by
    rintro (_ | n) hn m hm
    · simp [DGraph.fed] at hm
    · rcases m with _ | m
      · simp [DGraph.fed]
      · exact mem_fed.2 (hg.up_mem n (mem_fed.1 hn) m (mem_fed_up.1 hm))
  down_mem := by
    rintro (_ | n) hn m hm
    · simp only [DGraph.fed, List.mem_map, List.mem_filter] at hm
      obtain ⟨a, ⟨ha, _⟩, rfl⟩ := hm
      exact mem_fed.2 ha
    · rw [fed_down] at hm
      obtain ⟨a, ha, rfl⟩ := List.mem_map.1 hm
      exact mem_fed.2 (hg.down_mem n (mem_fed.1 hn) a ha)
  up_nodup := by
    rintro (_ | n) hn
    · simp [DGraph.fed]
    · by_cases h : Starved g n
      · rw [fed_up_starved h]; simp
      · rw [fed_up h]; exact nodup_some (hg.up_nodup n (mem_fed.1 hn))
  down_nodup := by
    rintro (_ | n) hn
    · exact nodup_some (hg.nodes_nodup.filter _)
    · exact nodup_some (hg.down_nodup n (mem_fed.1 hn))
  dual := by
    rintro (_ | a) ha (_ | b) hb
    · simp [DGraph.fed]
    · by_cases h : Starved g b
      · rw [fed_up_starved h]
        simp [DGraph.fed, h, h.1]
      · rw [fed_up h]
        simp [DGraph.fed, h]
    · simp [DGraph.fed]
    · rw [mem_fed_up, fed_down, ← hg.dual a (mem_fed.1 ha) b (mem_fed.1 hb)]
      simp
  acyclic := by
    obtain ⟨rank, hr⟩ := hg.acyclic
    refine ⟨fun n => match n with | none => 0 | some n => rank n + 1, ?_⟩
    rintro (_ | b) hb (_ | a) ha
    · simp [DGraph.fed] at ha
    · simp [DGraph.fed] at ha
    · simp
    · have := hr b (mem_fed.1 hb) a (mem_fed_up.1 ha)
      simpa using this
  key_inj := by
    rintro (_ | a) ha (_ | b) hb h
    · rfl
    · cases h
    · cases h
    · exact congrArg some (hg.key_inj a (mem_fed.1 ha) b (mem_fed.1 hb) (Option.some.inj h))
  tasks_nodup := by
    show (none :: g.tasks.map some).Nodup
    rw [List.nodup_cons]
    exact ⟨by simp, hg.tasks_nodup.map (Option.some_injective _)⟩
  task_mem := by
    rintro (_ | n) hn
    · simp [DGraph.fed]
    · have := hg.task_mem n (mem_fed.1 hn)
      simpa [DGraph.fed] using this
  total_eq := by
    rintro (_ | t) ht
    · refine ⟨[none], by simp, ?_, rfl⟩
      rintro (_ | n) <;> simp [DGraph.fed]
    · have ht' : t ∈ g.tasks := by simpa [DGraph.fed] using ht
      obtain ⟨l, h1, h2, h3⟩ := hg.total_eq t ht'
      refine ⟨l.map some, nodup_some h1, ?_, by rw [List.length_map]; exact h3⟩
      rintro (_ | n)
      · simp [DGraph.fed]
      · simp [DGraph.fed, h2]
  rootTasks_nodup := by
    show (none :: g.rootTasks.map some).Nodup
    rw [List.nodup_cons]
    exact ⟨by simp, hg.rootTasks_nodup.map (Option.some_injective _)⟩
  rootTasks_mem := by
    rintro (_ | t) ht
    · simp [DGraph.fed]
    · have := hg.rootTasks_mem t (by simpa [DGraph.fed] using ht)
      simpa [DGraph.fed] using this
  numRoots_eq := by
    rintro (_ | t) ht
    · rfl
    · have := hg.numRoots_eq t (by simpa [DGraph.fed] using ht)
      simpa [DGraph.fed] using this
  rootGen_nodup := by
    rintro (_ | t) ht
    · simp [DGraph.fed]
    · exact nodup_some (hg.rootGen_nodup t (by simpa [DGraph.fed] using ht))
  rootGen_mem := by
    rintro (_ | t) ht (_ | n)
    · simp [DGraph.fed]
    · simp [DGraph.fed]
    · simp [DGraph.fed]
    · have ht' : t ∈ g.rootTasks := by simpa [DGraph.fed] using ht
      have h1 : some n ∈ g.fed.rootGen (some t) ↔ n ∈ g.rootGen t := by simp [DGraph.fed]
      rw [h1, hg.rootGen_mem t ht', mem_fed]
      constructor
      · rintro ⟨a, rfl, c⟩
        have hs : ¬ Starved g n := fun h => h.2.2 ht'
        exact ⟨a, rfl, by rw [fed_up hs, c]; rfl⟩
      · rintro ⟨a, b, c⟩
        have b' : g.task n = t := Option.some.inj b
        subst b'
        have hs : ¬ Starved g n := fun h => h.2.2 ht'
        rw [fed_up hs] at c
        exact ⟨a, rfl, List.map_eq_nil_iff.1 c⟩
  other_tasks := by
    rintro (_ | n) hn ht
    · simp [DGraph.fed] at ht
    · have ht' : g.task n ∉ g.rootTasks := by simpa [DGraph.fed] using ht
      by_cases h : Starved g n
      · rw [fed_up_starved h]; simp
      · rw [fed_up h]
        intro hc
        exact h ⟨mem_fed.1 hn, List.map_eq_nil_iff.1 hc, ht'⟩

/-- What is before a block in the new graph. -/
theorem anc_fed {a b : N} : Anc g.fed (some a) (some b) ↔ Anc g a b := by
  constructor
  · intro h
    have key : ∀ x : Option N, Relation.TransGen (Edge g.fed) (some a) x → ∀ b, x = some b → Anc g a b := by
      intro x hx
      induction hx with
      | single hx =>
        rintro b rfl
        exact .single (mem_fed_up.1 hx)
      | @tail x y hx hy ih =>
        rintro b rfl
        rcases x with _ | c
        · exfalso
          cases hx with
          | single h => simp [Edge, DGraph.fed] at h
          | tail _ h => simp [Edge, DGraph.fed] at h
        · exact .tail (ih c rfl) (mem_fed_up.1 hy)
    exact key _ h b rfl
  · intro h
    induction h with
    | single h => exact .single (mem_fed_up.2 h)
    | tail _ h ih => exact .tail ih (mem_fed_up.2 h)

theorem anc_none {b : N} : Anc g.fed none (some b) ↔ Hungry g b := by
  constructor
  · intro h
    have key : ∀ x : Option N, Relation.TransGen (Edge g.fed) none x → ∀ b, x = some b → Hungry g b := by
      intro x hx
      induction hx with
      | single hx =>
        rintro b rfl
        by_cases hs : Starved g b
        · exact ⟨b, hs, Or.inl rfl⟩
        · simp only [Edge] at hx
          rw [fed_up hs] at hx
          simp at hx
      | @tail x y hx hy ih =>
        rintro b rfl
        rcases x with _ | c
        · exfalso
          cases hx with
          | single h => simp [Edge, DGraph.fed] at h
          | tail _ h => simp [Edge, DGraph.fed] at h
        · obtain ⟨s, hs, h⟩ := ih c rfl
          have e : Edge g c b := mem_fed_up.1 hy
          refine ⟨s, hs, Or.inr ?_⟩
          rcases h with rfl | h
          · exact .single e
          · exact .tail h e
    exact key _ h b rfl
  · rintro ⟨s, hs, h⟩
    have e : Edge g.fed none (some s) := by
      show none ∈ g.fed.up (some s)
      rw [fed_up_starved hs]
      simp
    rcases h with rfl | h
    · exact .single e
    · exact .trans (.single e) (anc_fed.2 h)

end Verif
