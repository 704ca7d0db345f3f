import Verif.Model.TaskObjectGraph
import Verif.Proofs.TaskObjects

/-! # Lemmas about `Model/TaskObjectGraph` -/

namespace Verif

variable {O α : Type} {ob : TaskObjs O} {heap : Nat → List O} {info : O → α}

/-- The same dicts, with objects and with trees. -/
structure SameGraph (ob : TaskObjs O) (heap : Nat → List O) (info : O → α) (G : ObjGraph O) (H : TaskGraph α) : Prop where
  ids : G.ids = H.ids
  ups : G.ups = H.ups
  downs : G.downs = H.downs
  map : ∀ x, (G.taskMap x = none ∧ H.taskMap x = none) ∨
    ∃ o t, G.taskMap x = some o ∧ H.taskMap x = some t ∧ Unfolds ob heap info o t

namespace SameGraph

variable {G : ObjGraph O} {H : TaskGraph α}

theorem empty : SameGraph ob heap info ObjGraph.empty TaskGraph.empty :=
  ⟨rfl, rfl, rfl, fun _ => Or.inl ⟨rfl, rfl⟩⟩

theorem record (h : SameGraph ob heap info G H) {o : O} {t : TTree α} (ht : Unfolds ob heap info o t) :
    SameGraph ob heap info (G.record (ob.tid o) o) (H.record t) := by
  have hid : t.id = ob.tid o := by cases ht; rfl
  refine ⟨?_, ?_, ?_, fun x => ?_⟩
  · simp [ObjGraph.record, TaskGraph.record, h.ids, hid]
  · simp [ObjGraph.record, TaskGraph.record, h.ups, hid]
  · simp [ObjGraph.record, TaskGraph.record, h.downs, hid]
  · by_cases hx : x = ob.tid o
    · exact Or.inr ⟨o, t, by simp [ObjGraph.record, hx], by simp [TaskGraph.record, hx, hid], ht⟩
    · simpa [ObjGraph.record, TaskGraph.record, hid, hx] using h.map x

theorem link (h : SameGraph ob heap info G H) (b a : Nat) : SameGraph ob heap info (G.link b a) (H.link b a) := by
  refine ⟨h.ids, ?_, ?_, h.map⟩
  · simp [ObjGraph.link, TaskGraph.link, h.ups]
  · simp [ObjGraph.link, TaskGraph.link, h.downs]

mutual
theorem add : ∀ t : TTree α, ∃ N, ∀ n ≥ N, ∀ (o : O) (G : ObjGraph O) (H : TaskGraph α), Unfolds ob heap info o t →
    SameGraph ob heap info G H → ∃ G', ObjGraph.addTask ob heap n G o = .ok G' ∧
      SameGraph ob heap info G' (TaskGraph.addTask H t)
  | .node i a us => by
    obtain ⟨N, hN⟩ := adds us
    refine ⟨N + 1, fun n hn o G H ho h => ?_⟩
    obtain ⟨m, rfl⟩ : ∃ m, n = m + 1 := ⟨n - 1, by omega⟩
    cases ho with
    | node _ _ hus =>
      unfold ObjGraph.addTask TaskGraph.addTask
      rw [h.ids]
      split
      · exact ⟨G, rfl, h⟩
      · exact hN m (by omega) _ _ _ _ hus (h.record (.node o us hus))
theorem adds : ∀ us : List (TTree α), ∃ N, ∀ n ≥ N, ∀ (i : Nat) (l : List O) (G : ObjGraph O) (H : TaskGraph α),
    List.Forall₂ (Unfolds ob heap info) l us → SameGraph ob heap info G H →
      ∃ G', ObjGraph.addUps ob (ObjGraph.addTask ob heap n) i l G = .ok G' ∧
        SameGraph ob heap info G' (TaskGraph.addUps H i us)
  | [] => by
    refine ⟨0, fun n _ i l G H hl h => ?_⟩
    cases hl
    exact ⟨G, rfl, h⟩
  | u :: us => by
    obtain ⟨N, hN⟩ := add u
    obtain ⟨M, hM⟩ := adds us
    refine ⟨max N M, fun n hn i l G H hl h => ?_⟩
    cases hl with
    | @cons o _ l' _ ho hl =>
      obtain ⟨G1, h1, h2⟩ := hN n (le_trans (le_max_left _ _) hn) o G H ho h
      have hid : u.id = ob.tid o := by cases ho; rfl
      unfold ObjGraph.addUps TaskGraph.addUps
      rw [h1, hid]
      exact hM n (le_trans (le_max_right _ _) hn) i l' _ _ hl (h2.link i (ob.tid o))
end

theorem build : ∀ ts : List (TTree α), ∃ N, ∀ n ≥ N, ∀ (l : List O) (G : ObjGraph O) (H : TaskGraph α),
    List.Forall₂ (Unfolds ob heap info) l ts → SameGraph ob heap info G H →
      ∃ G', ObjGraph.build ob heap n l G = .ok G' ∧ SameGraph ob heap info G' (ts.foldl TaskGraph.addTask H)
  | [] => by
    refine ⟨0, fun n _ l G H hl h => ?_⟩
    cases hl
    exact ⟨G, rfl, h⟩
  | t :: ts => by
    obtain ⟨N, hN⟩ := add (ob := ob) (heap := heap) (info := info) t
    obtain ⟨M, hM⟩ := build ts
    refine ⟨max N M, fun n hn l G H hl h => ?_⟩
    cases hl with
    | @cons o _ l' _ ho hl =>
      obtain ⟨G1, h1, h2⟩ := hN n (le_trans (le_max_left _ _) hn) o G H ho h
      unfold ObjGraph.build
      rw [h1]
      exact hM n (le_trans (le_max_right _ _) hn) l' _ _ hl h2

end SameGraph

namespace ObjGraph

mutual
theorem init_same : ∀ t : TTree α, ∃ N, ∀ n ≥ N, ∀ (o : O) (keys : List Nat), Unfolds ob heap info o t →
    initTask ob heap n keys o = .ok (Scheduler.initTask keys t)
  | .node i a us => by
    obtain ⟨N, hN⟩ := inits_same us
    refine ⟨N + 1, fun n hn o keys ho => ?_⟩
    obtain ⟨m, rfl⟩ : ∃ m, n = m + 1 := ⟨n - 1, by omega⟩
    cases ho with
    | node _ _ hus =>
      unfold initTask Scheduler.initTask
      split
      · rfl
      · exact hN m (by omega) _ _ hus
theorem inits_same : ∀ us : List (TTree α), ∃ N, ∀ n ≥ N, ∀ (l : List O) (keys : List Nat),
    List.Forall₂ (Unfolds ob heap info) l us → initUps (initTask ob heap n) l keys = .ok (Scheduler.initTasks keys us)
  | [] => by
    refine ⟨0, fun n _ l keys hl => ?_⟩
    cases hl
    rfl
  | u :: us => by
    obtain ⟨N, hN⟩ := init_same u
    obtain ⟨M, hM⟩ := inits_same us
    refine ⟨max N M, fun n hn l keys hl => ?_⟩
    cases hl with
    | cons ho hl =>
      unfold initUps Scheduler.initTasks
      rw [hN n (le_trans (le_max_left _ _) hn) _ keys ho]
      exact hM n (le_trans (le_max_right _ _) hn) _ _ hl
end

/-- How many of the ids `L` are not in the graph. -/
def missing (L : List Nat) (G : ObjGraph O) : Nat := (L.filter (fun x => x ∉ G.ids)).length

theorem missing_le {L : List Nat} {G G' : ObjGraph O} (h : ∀ x ∈ G.ids, x ∈ G'.ids) : missing L G' ≤ missing L G := by
  unfold missing
  refine (List.monotone_filter_right L fun x hx => ?_).length_le
  simp only [decide_eq_true_eq] at hx ⊢
  exact fun hc => hx (h x hc)

theorem missing_record {L : List Nat} {G : ObjGraph O} {i : Nat} (t : O) (hi : i ∈ L) (hn : i ∉ G.ids) :
    missing L (G.record i t) < missing L G := by
  unfold missing
  have e : L.filter (fun x => x ∉ (G.record i t).ids) = (L.filter (fun x => x ∉ G.ids)).filter (fun x => x ≠ i) := by
    rw [List.filter_filter]
    refine List.filter_congr fun x _ => ?_
    simp [record, and_comm]
  rw [e, List.length_filter_lt_length_iff_exists]
  exact ⟨i, by simp [hi, hn], by simp⟩

theorem addTask_ends {L : List Nat} (hL : ∀ o, ob.tid o ∈ L) : ∀ (n : Nat) (G : ObjGraph O) (t : O), missing L G < n →
    ∃ G', addTask ob heap n G t = .ok G' ∧ ∀ x ∈ G.ids, x ∈ G'.ids
  | 0, _, _, h => absurd h (Nat.not_lt_zero _)
  | n + 1, G, t, h => by
    unfold addTask
    split
    · exact ⟨G, rfl, fun _ h => h⟩
    · rename_i hn
      have key : ∀ (us : List O) (H : ObjGraph O), missing L H < n →
          ∃ G', addUps ob (addTask ob heap n) (ob.tid t) us H = .ok G' ∧ ∀ x ∈ H.ids, x ∈ G'.ids := by
        intro us
        induction us with
        | nil => exact fun H _ => ⟨H, rfl, fun _ h => h⟩
        | cons u us ih =>
          intro H hH
          obtain ⟨H1, h1, h2⟩ := addTask_ends hL n H u hH
          obtain ⟨H2, h3, h4⟩ := ih (H1.link (ob.tid t) (ob.tid u)) (lt_of_le_of_lt (missing_le h2) hH)
          refine ⟨H2, ?_, fun x hx => h4 x (h2 x hx)⟩
          unfold addUps
          rw [h1]
          exact h3
      obtain ⟨G', h1, h2⟩ := key (heap (ob.ups t)) (G.record (ob.tid t) t)
        (by have := missing_record (G := G) t (hL t) hn; omega)
      exact ⟨G', h1, fun x hx => h2 x (by simp [record, hx])⟩

theorem build_ends {L : List Nat} (hL : ∀ o, ob.tid o ∈ L) {n : Nat} : ∀ (ts : List O) (G : ObjGraph O), missing L G < n →
    ∃ G', build ob heap n ts G = .ok G'
  | [], G, _ => ⟨G, rfl⟩
  | t :: ts, G, h => by
    obtain ⟨G1, h1, h2⟩ := addTask_ends (heap := heap) hL n G t h
    unfold build
    rw [h1]
    exact build_ends hL ts G1 (lt_of_le_of_lt (missing_le h2) h)

end ObjGraph
end Verif
