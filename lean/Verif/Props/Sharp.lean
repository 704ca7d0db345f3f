import Verif.Props.PipelineRun
import Verif.Props.ServerHold
import Verif.Props.Logging
import Verif.Proofs.ServerCount

/-!
# The partial claims are sharp: C12, C28, C33, C50, C78

Where a claim is false of the code, the exact condition under which the code does what is claimed. -/

set_option linter.unusedSectionVars false

namespace Verif

open Spec

/-! ## C33 -/

section C33

variable {N K S : Type} [DecidableEq K] [DecidableEq S]

theorem Book.popLost_cases : ∀ (ks : List K) (b : Book N K S) (acc : List N),
    Book.popLost ks b acc = .error .keyError ∨ (∃ r, Book.popLost ks b acc = .ok r) ∧ ks.Nodup ∧
      ∀ k ∈ ks, b.get k ≠ none
  | [], _, _ => Or.inr ⟨⟨_, rfl⟩, List.nodup_nil, fun _ h => by cases h⟩
  | k :: ks, b, acc => by
    rw [Book.popLost]
    rcases hg : b.get k with _ | log
    · exact Or.inl rfl
    · simp only
      rw [Book.del_ok hg]
      simp only
      rcases Book.popLost_cases ks (b.filter (fun e => e.1 ≠ k)) (acc ++ [log.block]) with h | ⟨h1, h2, h3⟩
      · exact Or.inl h
      · have h4 : ∀ k' ∈ ks, k' ≠ k ∧ b.get k' ≠ none := by
          intro k' hk'
          have h5 := h3 k' hk'
          rw [Book.get_filter_key (fun e => decide (e ≠ k))] at h5
          by_cases he : k' = k
          · subst he; simp at h5
          · simp only [ne_eq, he, not_false_eq_true, decide_true, if_true] at h5
            exact ⟨he, h5⟩
        refine Or.inr ⟨h1, List.nodup_cons.2 ⟨fun hk => (h4 k hk).1 rfl, h2⟩, ?_⟩
        intro k' hk'
        rcases List.mem_cons.1 hk' with rfl | hk'
        · rw [hg]; exact Option.some_ne_none _
        · exact (h4 k' hk').2

/-- An entry that is both disconnected and timed out is listed twice. -/
theorem Book.lostIds_twice (closed : S → Bool) (timeout : Option Int) (clock : Nat → Int) :
    ∀ (b : Book N K S) (i : Nat), (Book.lostIds closed timeout clock i b).Nodup →
      ∀ e j, (e, j) ∈ b.zipIdx i → ¬ (closed e.2.stream = true ∧
        ∃ d, timeout = some d ∧ clock j - e.2.sentAt > d)
  | [], _, _, _, _, h => by simp at h
  | (k, log) :: b, i, hn, e, j, h => by
    change (_ ++ _ ++ Book.lostIds closed timeout clock (i + 1) b).Nodup at hn
    rw [List.nodup_append] at hn
    rw [List.zipIdx_cons] at h
    rcases List.mem_cons.1 h with h | h
    · cases h
      rintro ⟨hc, d, hd, hlt⟩
      subst hd
      have hlt' : d < clock i - log.sentAt := hlt
      have := hn.1
      simp only at hc
      simp [hc, hlt'] at this
    · exact Book.lostIds_twice closed timeout clock b (i + 1) hn.2.1 e j h

/-- C33, the exact condition: `get_lost_blocks` raises, and then `KeyError`, exactly if an entry is both
disconnected and timed out when the loop looks at it. -/
theorem C33_raises_iff {b : Book N K S} (closed : S → Bool) (timeout : Option Int) (clock : Nat → Int)
    (hkeys : (b.map (·.1)).Nodup) :
    (b.getLost closed timeout clock = .error .keyError ↔
      ∃ e i, (e, i) ∈ b.zipIdx ∧ closed e.2.stream = true ∧ ∃ d, timeout = some d ∧ clock i - e.2.sentAt > d) ∧
    ∀ err, b.getLost closed timeout clock = .error err → err = .keyError := by
  have hc := Book.popLost_cases (Book.lostIds closed timeout clock 0 b) b []
  refine ⟨⟨fun h => ?_, fun ⟨e, i, h1, h2, h3⟩ => ?_⟩, fun err he => ?_⟩
  · by_contra hno
    have h1 := Book.getLost_ok closed timeout clock hkeys (fun e i hm hb => hno ⟨e, i, hm, hb.1, hb.2⟩)
    rw [h] at h1
    cases h1
  · rcases hc with h | ⟨_, h, _⟩
    · exact h
    · exact absurd ⟨h2, h3⟩ (Book.lostIds_twice closed timeout clock b 0 h e i h1)
  · unfold Book.getLost at he
    rcases hc with h | ⟨⟨r, h⟩, _⟩
    · rw [h] at he; exact (Except.error.inj he).symm
    · rw [h] at he; cases he

example : Book.getLost (fun s => s == 2) (some 5)
    (fun i => 4 + 3 * i) ([(1, ⟨11, 1, 0⟩), (2, ⟨12, 2, 0⟩)] : Book Nat Nat Nat) = .error .keyError := by decide

example : Book.getLost (fun s => s == 2) (some 5)
    (fun i => 4 + i) ([(1, ⟨11, 1, 0⟩), (2, ⟨12, 2, 0⟩)] : Book Nat Nat Nat) = .ok ([12], [(1, ⟨11, 1, 0⟩)]) := by decide

end C33

/-! ## C50 -/

section C50

variable {d : Nat} {tasks : List (Task d)} {p : Pipeline d}

/-- A task with conflict and no blocks has no level. -/
theorem BGraph.no_level (g : BGraph d) (h : g.Wf) (hc : g.conflict = true) (hb : g.blocks = .ok []) :
    g.levelOffsets = [] := by
  by_contra hne
  obtain ⟨lo, hlo⟩ := List.exists_mem_of_ne_nil _ hne
  have h1 := (g.mem_levelOffsets h lo).1 hlo
  have hg : g.Grid (Vec.const d 0) := by
    intro i
    rw [Vec.get_const]
    refine ⟨le_refl _, ?_, dvd_zero _⟩
    by_contra hu
    have := g.stride_zero h hc i (by omega)
    have := h1 i
    omega
  have := (g.mem_blocks h hb (g.blk (Vec.const d 0))).2 ⟨_, hg, rfl⟩
  cases this

theorem mapM_error {α β : Type} (f : α → Except PyErr β) (e : PyErr) :
    ∀ l : List α, (∀ a ∈ l, (∃ v, f a = .ok v) ∨ f a = .error e) → (∃ a ∈ l, f a = .error e) →
      l.mapM f = .error e
  | [], _, h => by obtain ⟨a, ha, _⟩ := h; cases ha
  | a :: l, h, ⟨x, hx, hf⟩ => by
    rw [List.mapM_cons]
    rcases h a List.mem_cons_self with ⟨v, hv⟩ | hv
    · rw [hv]
      rcases List.mem_cons.1 hx with rfl | hx
      · rw [hf] at hv; cases hv
      · have := mapM_error f e l (fun y hy => h y (List.mem_cons_of_mem _ hy)) ⟨x, hx, hf⟩
        change (l.mapM f >>= _) = _
        rw [this]
        rfl
    · rw [hv]; rfl

/-- C50, the exact condition: building the scheduler raises, and then `IndexError`, exactly if a task without
upstream tasks has `read_write_conflict` and no blocks. -/
theorem C50_raises_iff (hp : Pipeline.init tasks = .ok p) (hid : UniqueIds tasks) (hw : p.Wf) :
    (p.dgraph = .error .indexError ↔
      ∃ x g, p.tg.ups x = [] ∧ p.graphs x = some g ∧ g.conflict = true ∧ g.blocks = .ok []) ∧
    ∀ err, p.dgraph = .error err → err = .indexError := by
  have key : (∃ x g, p.tg.ups x = [] ∧ p.graphs x = some g ∧ g.conflict = true ∧ g.blocks = .ok []) →
      p.dgraph = .error .indexError := by
    rintro ⟨x, g, h1, h2, h3, h4⟩
    have hb := (Pipeline.built_of_init hp hid).1
    have hroot : ∀ y ∈ p.tg.rootTasks, (∃ v, p.numRoots y = .ok v) ∨ p.numRoots y = .error .indexError := by
      intro y hy
      obtain ⟨gy, hgy, _⟩ := hb.graph y ((Pipeline.mem_rootTasks y).1 hy).1
      have e : p.numRoots y = gy.numLevelBlocks 0 := Pipeline.bind_graphOf hgy _
      rw [e]
      unfold BGraph.numLevelBlocks
      rcases gy.levelOffsets[0]? with _ | lo
      · exact Or.inr rfl
      · exact Or.inl ⟨_, rfl⟩
    have hx : p.numRoots x = .error .indexError := by
      have e : p.numRoots x = g.numLevelBlocks 0 := Pipeline.bind_graphOf h2 _
      rw [e]
      unfold BGraph.numLevelBlocks
      rw [g.no_level (hw x g h2).1 h3 h4]
      rfl
    have := mapM_error p.numRoots .indexError p.tg.rootTasks hroot
      ⟨x, (Pipeline.mem_rootTasks x).2 ⟨hb.only x g h2, h1⟩, hx⟩
    unfold Pipeline.dgraph
    rw [this]
    rfl
  by_cases h : ∃ x g, p.tg.ups x = [] ∧ p.graphs x = some g ∧ g.conflict = true ∧ g.blocks = .ok []
  · exact ⟨⟨fun _ => h, key⟩, fun err he => by rw [key h] at he; exact (Except.error.inj he).symm⟩
  · have h1 := Props.C50_builds_partial hp hid hw (fun x g e1 e2 => by
      by_contra hc
      rw [not_or, not_not] at hc
      exact h ⟨x, g, e1, e2, by simpa using hc.1, hc.2⟩)
    exact ⟨⟨fun he => (by rw [h1] at he; cases he), key⟩, fun err he => (by rw [h1] at he; cases he)⟩

example : Pipeline.init [Ex.noneC] = .ok (Ex.pipe [Ex.noneC]) ∧ UniqueIds [Ex.noneC] ∧ (Ex.pipe [Ex.noneC]).Wf :=
  ⟨Ex.noneC_init, Ex.noneC_unique, Props.wf_of_regular Ex.noneC_init Ex.noneC_all_regular⟩

end C50

/-! ## C78 -/

section C78

open Logging

/-- A name with a suffix: a dot with characters on both sides and no dot after it. -/
def HasSuffix (name : PyStr) : Prop := ∃ a b : PyStr, name = a ++ '.' :: b ∧ a ≠ [] ∧ b ≠ [] ∧ '.' ∉ b

theorem last_dot : ∀ {name : PyStr}, '.' ∈ name → ∃ a b : PyStr, name = a ++ '.' :: b ∧ '.' ∉ b := by
  intro name h
  induction name with
  | nil => cases h
  | cons c s ih =>
    by_cases hs : '.' ∈ s
    · obtain ⟨a, b, e, hb⟩ := ih hs
      exact ⟨c :: a, b, by rw [e]; rfl, hb⟩
    · rcases List.mem_cons.1 h with e | e
      · exact ⟨[], s, by rw [← e]; rfl, hs⟩
      · exact absurd e hs

theorem idxOf_last {a b : PyStr} (hb : '.' ∉ b) : (a ++ '.' :: b).reverse.idxOf '.' = b.length := by
  have : (a ++ '.' :: b).reverse = b.reverse ++ '.' :: a.reverse := by simp
  rw [this, List.idxOf_append_of_notMem (by simpa using hb)]
  simp

/-- What is cut off a name. -/
theorem stem_suffix {a b : PyStr} (ha : a ≠ []) (hb : b ≠ []) (hd : '.' ∉ b) :
    PyPath.stem (a ++ '.' :: b) = a := by
  have h1 := List.length_pos_of_ne_nil ha
  have h2 := List.length_pos_of_ne_nil hb
  unfold PyPath.stem
  simp only [idxOf_last hd]
  have hl : (a ++ '.' :: b).length - 1 - b.length = a.length := by simp
  rw [hl, if_pos ⟨by simp, h1, by simp; omega⟩]
  simp

theorem stem_iff (name : PyStr) : PyPath.stem name = name ↔ ¬ HasSuffix name := by
  constructor
  · rintro h ⟨a, b, rfl, ha, hb, hd⟩
    rw [stem_suffix ha hb hd] at h
    have := congrArg List.length h
    simp at this
  · intro h
    unfold PyPath.stem
    by_cases hn : '.' ∈ name
    · obtain ⟨a, b, rfl, hd⟩ := last_dot hn
      simp only [idxOf_last hd]
      have hl : (a ++ '.' :: b).length - 1 - b.length = a.length := by simp
      rw [hl, if_neg]
      rintro ⟨_, h1, h2⟩
      refine h ⟨a, b, rfl, List.ne_nil_of_length_pos h1, ?_, hd⟩
      rintro rfl
      simp at h2
    · simp only
      rw [if_neg (fun hc => hn hc.1)]

/-- C78, the exact condition: the output goes to `<name>.out` and `<name>.err` exactly if the last part of the
name has no suffix of its own. -/
theorem C78_redirect_iff {abs : Bool} {d : List PyStr} {name : PyStr} :
    redirect (some ⟨abs, d ++ [name]⟩) =
      .ok (some (⟨abs, d ++ [name ++ ".out".toList]⟩, ⟨abs, d ++ [name ++ ".err".toList]⟩)) ↔
    ¬ HasSuffix name := by
  rw [← stem_iff]
  simp only [redirect, PyPath.withSuffix, List.getLast?_concat, List.dropLast_concat]
  constructor
  · intro h
    have h1 := congrArg (fun p : PyPath × PyPath => p.1.parts) (Option.some.inj (Except.ok.inj h))
    simp only [List.append_cancel_left_eq, List.cons.injEq, and_true] at h1
    exact List.append_cancel_right h1
  · intro h
    rw [h]

/-- C78: two names with suffixes give the same files exactly if they differ in their suffixes only. -/
theorem C78_same_files {abs : Bool} {d : List PyStr} {a b b' : PyStr} (ha : a ≠ []) (hb : b ≠ []) (hb' : b' ≠ [])
    (hd : '.' ∉ b) (hd' : '.' ∉ b') :
    redirect (some ⟨abs, d ++ [a ++ '.' :: b]⟩) = redirect (some ⟨abs, d ++ [a ++ '.' :: b']⟩) ∧
    redirect (some ⟨abs, d ++ [a ++ '.' :: b]⟩) =
      .ok (some (⟨abs, d ++ [a ++ ".out".toList]⟩, ⟨abs, d ++ [a ++ ".err".toList]⟩)) := by
  simp only [redirect, PyPath.withSuffix, List.getLast?_concat, List.dropLast_concat, stem_suffix ha hb hd,
    stem_suffix ha hb' hd', and_self]

example : HasSuffix "worker.1.log".toList ∧ ¬ HasSuffix ".log".toList ∧ ¬ HasSuffix "log.".toList :=
  ⟨⟨"worker.1".toList, "log".toList, by decide +kernel⟩, (stem_iff _).1 (by decide +kernel), (stem_iff _).1 (by decide +kernel)⟩

end C78

/-! ## C28 -/

section C28

variable {N T K : Type} [DecidableEq N] [DecidableEq T] [DecidableEq K] {g : DGraph N T K}

/-- Two different downstream blocks have no downstream blocks themselves. -/
def TwoEnds (g : DGraph N T K) (u : N) : Prop :=
  ∃ d ∈ g.down u, ∃ d' ∈ g.down u, d ≠ d' ∧ g.down d = [] ∧ g.down d' = []

/-- Ends are not in the surface, nothing is in the boundary, and blocks with two ends stay. -/
structure RS.Leaky (g : DGraph N T K) (rs : RS N) (D : N → Prop) : Prop where
  ends : ∀ n ∈ rs.surface, g.down n ≠ []
  bdry : rs.boundary = ∅
  keep : ∀ u, D u → TwoEnds g u → u ∈ rs.surface

theorem RS.foldRemove_empty (l : List (N × Int)) : ∀ rs : RS N, rs.boundary = ∅ →
    l.foldl (fun r dc => if dc.2 < 0 then r.removeFromBoundary g dc.1 else r) rs = rs := by
  induction l with
  | nil => intro rs _; rfl
  | cons x l ih =>
    intro rs h
    have : (if x.2 < 0 then rs.removeFromBoundary g x.1 else rs) = rs := by
      split
      · unfold RS.removeFromBoundary
        rw [if_neg]
        rw [h]
        rintro ⟨h', _⟩
        exact absurd h' (Finset.notMem_empty _)
      · rfl
    rw [List.foldl_cons, this]
    exact ih rs h

theorem RS.scanDown_empty : ∀ (ms : List N) (rs : RS N) (ready : List N), rs.boundary = ∅ →
    (RS.scanDown g ms rs ready).2 = rs
  | [], _, _, _ => rfl
  | m :: ms, rs, ready, h => by
    have ha : RS.addToBoundary g rs m = (false, rs) := by
      unfold RS.addToBoundary
      rw [if_neg]
      rintro ⟨_, u, _, hu⟩
      rw [h] at hu
      exact absurd hu (Finset.notMem_empty _)
    rw [RS.scanDown, ha]
    simp only
    split
    · exact RS.scanDown_empty ms rs _ h
    · exact RS.scanDown_empty ms rs _ h

theorem RS.cleanUps_keep : ∀ (us : List N) {rs rs' : RS N} {n : N}, rs.boundary = ∅ →
    (∀ x ∈ rs.surface, x = n ∨ g.down x ≠ []) → RS.cleanUps g us rs = .ok rs' →
    rs'.boundary = ∅ ∧ rs'.surface ⊆ rs.surface ∧ ∀ u, TwoEnds g u → u ∈ rs.surface → u ∈ rs'.surface
  | [], rs, rs', n, h, _, e => by
    cases e
    exact ⟨h, Finset.Subset.refl _, fun _ _ h => h⟩
  | v :: us, rs, rs', n, h, hs, e => by
    rw [RS.cleanUps] at e
    have step : ∀ r, RS.cleanUp g rs v = .ok r → r.boundary = ∅ ∧ r.surface ⊆ rs.surface ∧
        ∀ u, TwoEnds g u → u ∈ rs.surface → u ∈ r.surface := by
      intro r hr
      unfold RS.cleanUp at hr
      dsimp only at hr
      split at hr
      · rename_i hall
        split at hr
        · cases hr
        · rename_i s hs'
          unfold RS.setRemove at hs'
          split at hs'
          · cases hs'
            rw [RS.foldRemove_empty] at hr
            · cases hr
              refine ⟨h, Finset.erase_subset _ _, fun u hu hm => ?_⟩
              refine Finset.mem_erase.2 ⟨?_, hm⟩
              rintro rfl
              obtain ⟨d, hd, d', hd', hne, hl, hl'⟩ := hu
              have key : ∀ x ∈ g.down u, g.down x = [] → x = n := by
                intro x hx hlx
                have h1 := List.all_eq_true.1 hall _ (List.mem_map_of_mem hx)
                have hxs : x ∈ rs.surface := by
                  by_contra hc
                  simp [RS.contained, h, hc] at h1
                rcases hs x hxs with h2 | h2
                · exact h2
                · exact absurd hlx h2
              exact hne ((key d hd hl).trans (key d' hd' hl').symm)
            · exact h
          · cases hs'
      · cases hr
        exact ⟨h, Finset.Subset.refl _, fun _ _ h => h⟩
    rcases hc : RS.cleanUp g rs v with e' | r
    · rw [hc] at e; cases e
    · rw [hc] at e
      obtain ⟨h1, h2, h3⟩ := step r hc
      obtain ⟨h4, h5, h6⟩ := RS.cleanUps_keep us h1 (fun x hx => hs x (h2 hx)) e
      exact ⟨h4, h5.trans h2, fun u hu hm => h6 u hu (h3 u hu hm)⟩

theorem RS.Leaky.mark {rs rs' : RS N} {D : N → Prop} (h : RS.Leaky g rs D) {n : N} {ready : List N}
    (e : RS.markSuccess g rs n = .ok (ready, rs')) : RS.Leaky g rs' (fun x => D x ∨ x = n) := by
  unfold RS.markSuccess at e
  dsimp only at e
  split at e
  · cases e
  · have h0 := RS.scanDown_empty (g := g) (g.down n) { rs with surface := insert n rs.surface } [] h.bdry
    rcases hsc : RS.scanDown g (g.down n) { rs with surface := insert n rs.surface } [] with ⟨rd, rs2⟩
    rw [hsc] at e h0
    simp only at h0
    subst h0
    dsimp only at e
    split at e
    · cases e
    · rename_i rs3 h3
      obtain ⟨h4, h5, h6⟩ := RS.cleanUps_keep (rs := { rs with surface := insert n rs.surface }) (n := n) (g.up n)
        h.bdry (fun x hx => by
        rcases Finset.mem_insert.1 hx with hx | hx
        · exact Or.inl hx
        · exact Or.inr (h.ends x hx)) h3
      have hin : ∀ u, D u ∨ u = n → TwoEnds g u → u ∈ rs3.surface := by
        intro u hu ht
        refine h6 u ht ?_
        rcases hu with hu | hu
        · exact Finset.mem_insert_of_mem (h.keep u hu ht)
        · exact hu ▸ Finset.mem_insert_self _ _
      split at e
      · rename_i hemp
        rw [List.isEmpty_iff] at hemp
        split at e
        · cases e
        · rename_i s hs
          cases e
          unfold RS.setRemove at hs
          split at hs
          · cases hs
            refine ⟨fun x hx => ?_, h4, fun u hu ht => ?_⟩
            · obtain ⟨hx1, hx2⟩ := Finset.mem_erase.1 hx
              rcases Finset.mem_insert.1 (h5 hx2) with hx3 | hx3
              · exact absurd hx3 hx1
              · exact h.ends x hx3
            · refine Finset.mem_erase.2 ⟨?_, hin u hu ht⟩
              rintro rfl
              obtain ⟨d, hd, _⟩ := ht
              rw [hemp] at hd
              cases hd
          · cases hs
      · rename_i hemp
        cases e
        refine ⟨fun x hx => ?_, h4, hin⟩
        rcases Finset.mem_insert.1 (h5 hx) with hx3 | hx3
        · subst hx3
          intro hc
          exact hemp (List.isEmpty_iff.2 hc)
        · exact h.ends x hx3

theorem Sched.updateReadyQueue_rs (st : Sched N T K) (ns : List N) : (st.updateReadyQueue g ns).rs = st.rs := by
  induction ns generalizing st with
  | nil => rfl
  | cons n ns ih => exact (ih _).trans rfl

theorem Sched.removeFromProcessing_rs {st st1 : Sched N T K} {n : N} (h : st.removeFromProcessing g n = .ok st1) :
    st1.rs = st.rs := by
  unfold Sched.removeFromProcessing at h
  split at h
  · cases h; rfl
  · cases h

theorem RS.Leaky.good {st st' : Sched N T K} {D : N → Prop} (h : RS.Leaky g st.rs D) {n : N}
    {pick : Nat → Finset N → N} (e : st.releaseBlock g pick n .success = .ok st') :
    RS.Leaky g st'.rs (fun x => D x ∨ x = n) := by
  unfold Sched.releaseBlock at e
  split at e
  · cases e
  · rename_i st1 h1
    have e1 := Sched.removeFromProcessing_rs h1
    simp only at e
    split at e
    · cases e
    · rename_i nb rs' h2
      cases e
      rw [Sched.updateReadyQueue_rs]
      rw [e1] at h2
      exact h.mark h2

theorem RS.Leaky.mono {rs : RS N} {D D' : N → Prop} (h : RS.Leaky g rs D) (hd : ∀ x, D' x → D x) :
    RS.Leaky g rs D' := ⟨h.ends, h.bdry, fun u hu => h.keep u (hd u hu)⟩

theorem RS.Leaky.acquire (t : T) (chk : Nat → N → Check) :
    ∀ (fuel k : Nat) {st st' : Sched N T K} {tr : List (Ev N)} {skips skips' : List N} {r : Option N},
      RS.Leaky g st.rs (Done tr) → Sched.acquireLoop g t fuel chk k st skips = .ok (skips', r, st') →
      ∃ more, skips' = skips ++ more ∧ RS.Leaky g st'.rs (Done (tr ++ acquireEvents more r))
  | 0, _, _, _, _, _, _, _, _, h => by cases h
  | fuel + 1, k, st, st', tr, skips, skips', r, hs, h => by
    unfold Sched.acquireLoop at h
    split at h
    · cases h
    · cases h
      exact ⟨[], by simp, by simpa [acquireEvents] using hs⟩
    · rename_i n q hq
      dsimp only at h
      split at h
      · split at h
        · cases h
        · rename_i st3 hrel
          have h1 : RS.Leaky g st3.rs (fun x => Done tr x ∨ x = n) := 
            RS.Leaky.good (g := g) (D := Done tr) (by exact hs) hrel
          obtain ⟨more, e1, e2⟩ := RS.Leaky.acquire t chk fuel (k + 1)
            (h1.mono (fun x hx => (done_skip tr n x).1 hx)) h
          refine ⟨n :: more, by rw [e1]; simp, ?_⟩
          simpa [acquireEvents] using e2
      · cases h
        refine ⟨[], by simp, ?_⟩
        refine RS.Leaky.mono (D := Done tr) hs (fun x hx => ?_)
        simpa [acquireEvents, Done] using hx

/-- C28: what is retained for good.  In a run without permanent failures, a completed block with two downstream
blocks that have no downstream blocks of their own is in the surface, however many of its downstream blocks have
completed. -/
theorem C28_retained (hg : g.OK) {tr : List (Ev N)} {st : Sched N T K} (h : Run g tr st)
    (hdead : ∀ n, ¬ Dead g tr n) {u : N} (hu : Done tr u) (h2 : TwoEnds g u) : u ∈ st.rs.surface := by
  suffices hl : RS.Leaky g st.rs (Done tr) from hl.keep u hu h2
  clear hu h2 u
  induction h with
  | init =>
    have hrs : (Sched.init g).rs = RS.init := (Sched.init_totals _ _).1.trans (Sched.init_rs _ _)
    rw [hrs]
    exact ⟨fun n hn => absurd hn (Finset.notMem_empty _), rfl, fun u hu => by simp [Done] at hu⟩
  | acquire chk t h hacq ih =>
    obtain ⟨more, e1, e2⟩ := RS.Leaky.acquire t chk _ _ (ih (fun n hn => hdead n (dead_mono hn))) hacq
    rw [List.nil_append] at e1
    subst e1
    exact e2
  | good pick h hh hp hr ih =>
    exact ((ih (fun n hn => hdead n (dead_mono hn))).good hr).mono (fun x hx => (done_good _ _ _).1 hx)
  | @bad tr st st' n pick h hh hp hr ih =>
    have hno : ∀ x, ¬ Dead g tr x := fun x hx => hdead x (dead_mono hx)
    have hl := ih hno
    refine RS.Leaky.mono (D := Done tr) ?_ (fun x hx => (done_bad _ _ _).1 hx)
    obtain ⟨c, hi⟩ := (h.inv hg).inv
    have hret := hi.retries n (hi.hNode n hh) (hno n)
    unfold Sched.releaseBlock at hr
    split at hr
    · cases hr
    · rename_i st1 h1
      have e1 := Sched.removeFromProcessing_rs h1
      have e2 : (st1.queues (g.task n)).retries (g.key n) = (st.queues (g.task n)).retries (g.key n) := by
        unfold Sched.removeFromProcessing at h1
        split at h1
        · cases h1
          simp [Sched.modQueue_queues]
        · cases h1
      simp only at hr
      split at hr
      · rename_i hle
        exfalso
        rw [e2, hret] at hle
        refine hdead n ⟨by simp, ?_⟩
        rw [List.count_append]
        simp
        omega
      · cases hr
        have : st1.rs = st.rs := e1
        change RS.Leaky g st1.rs (Done tr)
        rw [this]
        exact hl

/-- The graph of `C28_false` and a block more: block 0 has the ends 1, 2, 3; after the first two it is still there. -/
example : ∃ (g : DGraph (Fin 4) (Fin 1) (Fin 4)) (tr : List (Ev (Fin 4))) (st : Sched (Fin 4) (Fin 1) (Fin 4)),
    g.OK ∧ Run g tr st ∧ (∀ n, ¬ Dead g tr n) ∧ Done tr 0 ∧ TwoEnds g 0 ∧ .good 2 ∈ tr := by
  have hok : (finGraph 4 1 (fun n => if n = 0 then [] else [0]) (fun _ => 0) (fun _ => 0) [0]).OK :=
    finGraph_ok (by decide) (by decide) (by decide) (by decide)
  have hx : (exec (finGraph 4 1 (fun n => if n = 0 then [] else [0]) (fun _ => 0) (fun _ => 0) [0])
      pickMin [.acq 0 [], .good 0, .acq 0 [], .acq 0 [], .good 1, .good 2]).map
      (fun p => p.1) = some [.hand 0, .good 0, .hand 1, .hand 2, .good 1, .good 2] := by decide +kernel
  obtain ⟨tr, st, h, e⟩ := exec_map pickMin_legal _ hx
  subst e
  exact ⟨_, _, st, hok, h, fun n hn => by simp [Dead] at hn, by simp [Done],
    ⟨1, by decide, 2, by decide, by decide, by decide, by decide⟩, by simp⟩

end C28

/-! ## C12 -/

section C12

variable {d : Nat}

/-- The coordinate origin lies inside the cell of the block, and not on its border: the block starts before the
origin and, were it not shrunk, would end after it, along every axis. -/
def HoldsOrigin (g : BGraph d) (b : Block d) : Prop :=
  ∀ i, b.writeRoi.offset.get i < 0 ∧ 0 < b.writeRoi.offset.get i + g.blockWrite.shape.get i

/-- C12, what a query that misses the total write ROI returns: the block that holds the origin, if there is one. -/
theorem C12_missed (g : BGraph d) (h : g.Wf) (sub : Roi d) (hsub : ∀ i, 0 ≤ sub.shape.get i)
    (hs : ¬ Overlap sub g.totalWrite) {bs : List (Block d)} (hbs : g.blocks = .ok bs) :
    (g.subgraphBlocks sub false).Nodup ∧
    ∀ b, b ∈ g.subgraphBlocks sub false ↔ b ∈ bs ∧ HoldsOrigin g b := by
  have hov : sub.intersects g.totalWrite = false := by
    rw [Bool.eq_false_iff]
    exact fun hc => hs (BGraph.overlap_of_intersects hsub h.tnn hc)
  have hlo : ∀ i, ((sub.intersect g.totalWrite).lo - g.totalWrite.offset).get i =
      - g.totalWrite.offset.get i := by
    intro i
    simp [Roi.intersect, hov, Roi.lo]
  have hhi : ∀ i, ((sub.intersect g.totalWrite).hi - g.totalWrite.offset).get i =
      - g.totalWrite.offset.get i := by
    intro i
    simp [Roi.intersect, hov]
  constructor
  · rw [g.subgraph_eq h]
    unfold BGraph.cellBlocks
    refine List.Nodup.filter _ (List.Nodup.map_on ?_ ?_)
    · intro x hx y hy _
      rw [BGraph.mem_cells g h] at hx hy
      refine Vec.ext_get fun i => ?_
      obtain ⟨a1, a2, a3⟩ := hx i
      obtain ⟨b1, b2, b3⟩ := hy i
      rw [hlo] at a2 b2
      rw [hhi] at a3 b3
      exact Axis.dvd_close a1 b1 (by omega) (by omega)
    · refine nodup_vecProduct _ (fun i => ?_)
      simp only [Vec.get_zipWith]
      exact nodup_pyRange (h.wpos i)
  · intro b
    rw [g.subgraph_eq h, g.mem_blocks h hbs]
    unfold BGraph.cellBlocks
    simp only [List.mem_filter, List.mem_map, BGraph.mem_cells g h, hlo, hhi]
    constructor
    · rintro ⟨⟨o, ho, rfl⟩, hi⟩
      have hg := g.miss_grid h ho hi
      refine ⟨⟨o, hg, rfl⟩, fun i => ?_⟩
      have h1 := ho i
      rw [(g.blk_write h o (g.grid_admissible hg)).1 i]
      simp only [BGraph.w] at h1
      omega
    · rintro ⟨⟨o, hg, rfl⟩, ho⟩
      have hadm := g.grid_admissible hg
      refine ⟨⟨o, fun i => ?_, rfl⟩, ?_⟩
      · have h1 := ho i
        rw [(g.blk_write h o hadm).1 i] at h1
        simp only [BGraph.w]
        exact ⟨(hg i).2.2, by omega, by omega⟩
      · by_cases hf : g.fit = .shrink
        · simp only [BGraph.included, hf, BGraph.shrinkPossible]
          rw [Roi.containsPoint_iff]
          intro i
          rw [Roi.get_lo, (g.blk_write h o hadm).1 i]
          have h1 := hadm i
          rw [g.u_other (by simp [hf])] at h1
          simp only [BGraph.t] at h1
          omega
        · have : g.blk o = g.raw o := by
            unfold BGraph.blk BGraph.fitBlock
            split
            · rfl
            · rfl
            · rename_i hf'; exact absurd hf' hf
          rw [this]
          exact (g.included_raw h o).2 hadm

/-- C12, the exact condition: a query returns the blocks it should exactly if it meets the total write ROI or no
block holds the origin. -/
theorem C12_exact_iff (g : BGraph d) (h : g.Wf) (sub : Roi d) (hsub : ∀ i, 0 ≤ sub.shape.get i)
    {bs : List (Block d)} (hbs : g.blocks = .ok bs) :
    (∀ b, b ∈ g.subgraphBlocks sub false ↔ b ∈ bs ∧
      ∃ p, InRoi p b.writeRoi ∧ InRoi p sub ∧ InRoi p g.totalWrite) ↔
    Overlap sub g.totalWrite ∨ ∀ b ∈ bs, ¬ HoldsOrigin g b := by
  by_cases hs : Overlap sub g.totalWrite
  · exact ⟨fun _ => Or.inl hs, fun _ => (Props.C12_subgraph_partial g h sub hsub (Or.inl hs) hbs).2⟩
  · have hno : ∀ b : Block d, ¬ ∃ p, InRoi p b.writeRoi ∧ InRoi p sub ∧ InRoi p g.totalWrite :=
      fun b ⟨p, _, h2, h3⟩ => hs ⟨p, h2, h3⟩
    have hm := (C12_missed g h sub hsub hs hbs).2
    constructor
    · intro he
      exact Or.inr fun b hb ho => hno b ((he b).1 ((hm b).2 ⟨hb, ho⟩)).2
    · rintro (h1 | h1)
      · exact absurd h1 hs
      · exact fun b => ⟨fun hb => absurd ((hm b).1 hb).2 (h1 b ((hm b).1 hb).1), fun hb => absurd hb.2 (hno b)⟩

example : ¬ Overlap (Ex.r1 10 12) Props.offOrigin.totalWrite ∧ Props.offOrigin.Wf ∧
    ∃ bs, Props.offOrigin.blocks = .ok bs ∧ ∃ b ∈ bs, HoldsOrigin Props.offOrigin b := by
  refine ⟨?_, BGraph.wf_of_init (Ex.mk_init _ _ _ _ _ _ (by decide)) (by decide) ?_, _, rfl, ?_⟩
  · rw [BGraph.overlap_iff]; decide +kernel
  · change ∀ i, 0 ≤ (Ex.tw (Ex.r1 (-1) 5) (Ex.r1 0 2) (Ex.r1 0 2)).shape.get i
    decide
  · refine ⟨Props.offOrigin.blk (Ex.c1 0), by decide +kernel, ?_⟩
    unfold HoldsOrigin
    decide +kernel

end C12

end Verif
