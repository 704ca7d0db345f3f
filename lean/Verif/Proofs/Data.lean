import Verif.Spec.Data
import Verif.Props.StarvedSched
import Mathlib.Data.List.Sort

/-! # Executions with data: helper lemmas -/

namespace Verif

open Spec

namespace Prog

variable {L V : Type} [DecidableEq L] {R W : L → Prop}

/-- A program changes nothing outside its locations. -/
theorem run_frame {q : Prog L V} : q.Uses R W → ∀ (D : L → V) {l : L}, ¬ W l → q.run D l = D l := by
  induction q with
  | done => intro _ D l _; rfl
  | look m k ih => intro h D l hl; exact ih _ (h.2 _) D hl
  | put m v k ih =>
    intro h D l hl
    change k.run (upd D m v) l = _
    rw [ih h.2 _ hl]
    exact if_neg (fun e : l = m => hl (e ▸ h.1))

/-- What a program stores depends on its locations only. -/
theorem run_congr {q : Prog L V} : q.Uses R W → ∀ {D D' : L → V}, (∀ l, R l ∨ W l → D l = D' l) →
    ∀ l, R l ∨ W l → q.run D l = q.run D' l := by
  induction q with
  | done => intro _ D D' h l hl; exact h l hl
  | look m k ih =>
    intro hu D D' h l hl
    change (k (D m)).run D l = (k (D' m)).run D' l
    rw [h m hu.1]
    exact ih _ (hu.2 _) h l hl
  | put m v k ih =>
    intro hu D D' h l hl
    refine ih hu.2 (fun x hx => ?_) l hl
    unfold upd
    rw [h x hx]

theorem uses_step {q q' : Prog L V} {D D' : L → V} (h : q.Uses R W) (hs : q.step D = some (q', D')) :
    q'.Uses R W ∧ (∀ l, D' l ≠ D l → W l) ∧ q'.run D' = q.run D := by
  cases q with
  | done => cases hs
  | look m k => cases hs; exact ⟨h.2 _, fun l hl => absurd rfl hl, rfl⟩
  | put m v k =>
    cases hs
    refine ⟨h.2, fun l hl => ?_, rfl⟩
    by_cases e : l = m
    · exact e ▸ h.1
    · exact absurd (if_neg e) hl

end Prog

variable {N T K L V : Type} [DecidableEq N] [DecidableEq T] [DecidableEq K] [DecidableEq L] {g : DGraph N T K}
  {R W : N → L → Prop} {P : N → Prog L V} {D₀ : L → V} {order : List N}

section
omit [DecidableEq N] [DecidableEq T] [DecidableEq K] [DecidableEq L]

theorem Spec.Topological.before (hg : g.Loose) (ho : Topological g order) {a b : N} (ha : Anc g a b) :
    b ∈ g.nodes → ∀ {pre post : List N}, order = pre ++ b :: post → a ∈ pre := by
  have hedge : ∀ {c b : N}, c ∈ g.up b → b ∈ g.nodes → ∀ {pre post : List N}, order = pre ++ b :: post → c ∈ pre := by
    intro c b hc hb pre post e
    have hm := (ho.mem c).2 (hg.up_mem b hb c hc)
    rw [e] at hm
    rcases List.mem_append.1 hm with h | h
    · exact h
    · exfalso
      rcases List.mem_cons.1 h with rfl | h
      · obtain ⟨rank, hr⟩ := hg.acyclic
        exact lt_irrefl _ (hr c hb c hc)
      · have := ho.sorted
        rw [e, List.pairwise_append] at this
        exact (List.pairwise_cons.1 this.2.1).1 c h hc
  induction ha with
  | single h => exact fun hb pre post e => hedge h hb e
  | @tail b c _ h ih =>
    intro hb pre post e
    obtain ⟨p1, p2, rfl⟩ := List.append_of_mem (hedge h hb e)
    exact List.mem_append_left _ (ih (hg.up_mem _ hb _ h) (post := p2 ++ c :: post) (by rw [e]; simp))

theorem Spec.Topological.after (hg : g.Loose) (ho : Topological g order) {a b : N} (ha : Anc g b a)
    (han : a ∈ g.nodes) {pre post : List N} (e : order = pre ++ b :: post) : a ∈ post := by
  have hm := (ho.mem a).2 han
  have hnd := ho.nodup
  rw [e] at hm hnd
  have hd := List.nodup_append.1 hnd
  have hb : b ∉ pre := fun h => hd.2.2 b h b (by simp) rfl
  rcases List.mem_append.1 hm with h | h
  · exfalso
    obtain ⟨p1, p2, rfl⟩ := List.append_of_mem h
    exact hb (List.mem_append_left _ (ho.before hg ha han (post := p2 ++ b :: post) (by rw [e]; simp)))
  · rcases List.mem_cons.1 h with rfl | h
    · exact absurd (ho.before hg ha han e) hb
    · exact h

theorem Spec.exists_topological (hg : g.Loose) : ∃ order, Topological g order := by
  obtain ⟨rank, hr⟩ := hg.acyclic
  have hp := List.perm_insertionSort (fun a b => rank a ≤ rank b) g.nodes
  refine ⟨g.nodes.insertionSort (fun a b => rank a ≤ rank b), hp.nodup_iff.2 hg.nodes_nodup,
    fun n => hp.mem_iff, ?_⟩
  have : Std.Total (fun a b : N => rank a ≤ rank b) := ⟨fun a b => Nat.le_total _ _⟩
  have : IsTrans N (fun a b => rank a ≤ rank b) := ⟨fun a b c => Nat.le_trans⟩
  have hs := List.pairwise_insertionSort (fun a b => rank a ≤ rank b) g.nodes
  refine List.Pairwise.imp_of_mem ?_ hs
  intro a b ha _ hab hup
  have := hr a (hp.mem_iff.1 ha) b hup
  omega

end

section
omit [DecidableEq N] [DecidableEq T] [DecidableEq K]

theorem oneByOne_frame {xs : List N} (hu : ∀ n ∈ xs, (P n).Uses (R n) (W n)) {l : L} (hl : ∀ n ∈ xs, ¬ W n l) :
    ∀ D : L → V, oneByOne P xs D l = D l := by
  induction xs with
  | nil => intro D; rfl
  | cons x xs ih =>
    intro D
    change oneByOne P xs ((P x).run D) l = _
    rw [ih (fun n hn => hu n (List.mem_cons_of_mem _ hn)) (fun n hn => hl n (List.mem_cons_of_mem _ hn)),
      Prog.run_frame (hu x (by simp)) _ (hl x (by simp))]

theorem oneByOne_append (xs ys : List N) (D : L → V) :
    oneByOne P (xs ++ ys) D = oneByOne P ys (oneByOne P xs D) := List.foldl_append

theorem Spec.Topological.mem_split (ho : Topological g order) {pre post : List N} {n a : N}
    (e : order = pre ++ n :: post) (h : a ∈ pre ∨ a = n ∨ a ∈ post) : a ∈ g.nodes := by
  rw [← ho.mem, e]
  simpa using h

variable (hd : Disciplined g R W P) (ho : Topological g order)

include hd ho

/-- A location of `n` holds in the end what `n` has stored. -/
theorem oneByOne_at {pre post : List N} {n : N} (e : order = pre ++ n :: post) {l : L} (hl : W n l) :
    oneByOne P order D₀ l = (P n).run (oneByOne P pre D₀) l := by
  have hn := ho.mem_split e (a := n) (by simp)
  have hnd := ho.nodup
  rw [e] at hnd
  have hp : n ∉ post := (List.nodup_cons.1 (List.nodup_append.1 hnd).2.1).1
  rw [e, oneByOne_append]
  change oneByOne P post _ l = _
  exact oneByOne_frame (R := R) (W := W) (fun m hm => hd.uses m (ho.mem_split e (by simp [hm])))
    (fun m hm hw => by
      have := hd.apart m (ho.mem_split e (by simp [hm])) n hn l hw hl
      exact hp (this ▸ hm)) _

/-- What an earlier block has stored does not change any more. -/
theorem oneByOne_earlier {pre post : List N} {n a : N} (e : order = pre ++ n :: post) (ha : a ∈ pre) {l : L}
    (hl : W a l) : oneByOne P order D₀ l = oneByOne P pre D₀ l := by
  have hnd := ho.nodup
  rw [e] at hnd
  rw [e, oneByOne_append]
  have hmem : ∀ m ∈ n :: post, m ∈ g.nodes := fun m hm =>
    ho.mem_split e (Or.inr (List.mem_cons.1 hm))
  exact oneByOne_frame (R := R) (W := W) (fun m hm => hd.uses m (hmem m hm)) (fun m hm hw =>
    (List.nodup_append.1 hnd).2.2 a ha m hm
      (hd.apart a (ho.mem_split e (by simp [ha])) m (hmem m hm) l hl hw)) _

/-- At the locations of a block nothing has changed before it is its turn. -/
theorem oneByOne_later {pre post : List N} {n a : N} (e : order = pre ++ n :: post) (ha : a ∈ n :: post) {l : L}
    (hl : W a l) : oneByOne P pre D₀ l = D₀ l := by
  have hnd := ho.nodup
  rw [e] at hnd
  have han : a ∈ g.nodes := ho.mem_split e (Or.inr (List.mem_cons.1 ha))
  exact oneByOne_frame (R := R) (W := W) (fun m hm => hd.uses m (ho.mem_split e (by simp [hm])))
    (fun m hm hw => (List.nodup_append.1 hnd).2.2 m hm a ha
      (hd.apart m (ho.mem_split e (by simp [hm])) a han l hw hl)) _

end

/-- What is known about the data in an execution. -/
structure DataInv (g : DGraph N T K) (R W : N → L → Prop) (D₀ F : L → V) (tr : List (Ev N)) (D : L → V)
    (cur : N → Prog L V) : Prop where
  off : ∀ l, (∀ n ∈ g.nodes, ¬ W n l) → D l = D₀ l
  fresh : ∀ n ∈ g.nodes, .hand n ∉ tr → ∀ l, W n l → D l = D₀ l
  done : ∀ n ∈ g.nodes, Done tr n → ∀ l, W n l → D l = F l
  held : ∀ n, Held tr n → (cur n).Uses (R n) (W n) ∧ ∀ l, W n l → (cur n).run D l = F l

omit [DecidableEq L] in
theorem hand_before {tr : List (Ev N)} (hl : Legal g tr) {n a : N} (ha : Anc g n a) (h : Ev.hand a ∈ tr) :
    Done tr n := by
  obtain ⟨pre, post, rfl⟩ := List.append_of_mem h
  have hr : Ready g pre a := hl pre (.hand a) post rfl
  have hl' : Legal g pre := fun p e q hx => hl p e (q ++ .hand a :: post) (by rw [hx]; simp)
  exact (legal_anc_done hl' hr.2.1 ha).imp (List.mem_append_left _) (List.mem_append_left _)

omit [DecidableEq T] [DecidableEq K] [DecidableEq L] in
/-- A block that can be handed out again has failed. -/
theorem bad_of_ready {tr : List (Ev N)} {n : N} (hr : Ready g tr n) (hh : Ev.hand n ∈ tr) : Ev.bad n ∈ tr := by
  have h1 := List.count_pos_iff.2 hh
  have h2 : tr.count (.good n) = 0 := List.count_eq_zero.2 (fun h => hr.2.2.1 (Or.inl h))
  have h3 := hr.2.2.2.2
  unfold Held at h3
  exact List.count_pos_iff.1 (by omega)

section
variable (hg : g.Loose) (hd : Disciplined g R W P) (ho : Topological g order) {tr : List (Ev N)} {D : L → V}
  {cur : N → Prog L V}

include hg hd ho

/-- A block that is ready finds everything as it should be. -/
theorem ready_finds (hoff : ∀ l, (∀ n ∈ g.nodes, ¬ W n l) → D l = D₀ l)
    (hfresh : ∀ n ∈ g.nodes, .hand n ∉ tr → ∀ l, W n l → D l = D₀ l)
    (hdone : ∀ n ∈ g.nodes, Done tr n → ∀ l, W n l → D l = oneByOne P order D₀ l) (hl : Legal g tr) {n : N}
    (hr : Ready g tr n) (hR : .bad n ∈ tr → Restartable (W n) (P n)) :
    ∀ l, W n l → (P n).run D l = oneByOne P order D₀ l := by
  intro l hlw
  have hn := hr.1
  obtain ⟨pre, post, e⟩ := List.append_of_mem ((ho.mem n).2 hn)
  rw [oneByOne_at hd ho e hlw]
  have hreads : ∀ x, R n x → ¬ W n x → D x = oneByOne P pre D₀ x := by
    intro x hx hnx
    by_cases hw : ∃ a ∈ g.nodes, W a x
    · obtain ⟨a, ha, hax⟩ := hw
      have hne : a ≠ n := fun h => hnx (h ▸ hax)
      rcases hd.ordered a ha n hn x hax hx hne with h | h
      · rw [hdone a ha (legal_anc_done hl hr.2.1 h) x hax]
        exact oneByOne_earlier hd ho e (ho.before hg h hn e) hax
      · rw [hfresh a ha (fun hh => hr.2.2.1 (hand_before hl h hh)) x hax]
        exact (oneByOne_later hd ho e (List.mem_cons_of_mem _ (ho.after hg h ha e)) hax).symm
    · have hw' : ∀ a ∈ g.nodes, ¬ W a x := fun a ha h => hw ⟨a, ha, h⟩
      rw [hoff x hw']
      exact (oneByOne_frame (R := R) (W := W) (fun m hm => hd.uses m (ho.mem_split e (by simp [hm])))
        (fun m hm => hw' m (ho.mem_split e (by simp [hm]))) _).symm
  by_cases hh : Ev.hand n ∈ tr
  · classical
    rw [hR (bad_of_ready hr hh) D (fun x => if W n x then oneByOne P pre D₀ x else D x) (fun x hx => (if_neg hx).symm) l hlw]
    refine Prog.run_congr (hd.uses n hn) (fun x hx => ?_) l (Or.inr hlw)
    by_cases hw : W n x
    · exact if_pos hw
    · rw [if_neg hw]
      exact hreads x (hx.resolve_right hw) hw
  · refine Prog.run_congr (hd.uses n hn) (fun x hx => ?_) l (Or.inr hlw)
    by_cases hw : W n x
    · rw [hfresh n hn hh x hw]
      exact (oneByOne_later hd ho e (by simp) hw).symm
    · exact hreads x (hx.resolve_right hw) hw

theorem DataInv.start (hi : DataInv g R W D₀ (oneByOne P order D₀) tr D cur) (hl : Legal g tr) {n : N}
    (hr : Ready g tr n) (hR : .bad n ∈ tr → Restartable (W n) (P n)) :
    ∀ l, W n l → (P n).run D l = oneByOne P order D₀ l :=
  ready_finds hg hd ho hi.off hi.fresh hi.done hl hr hR

theorem DataInv.skip (hi : DataInv g R W D₀ (oneByOne P order D₀) tr D cur) (hl : Legal g tr) {n : N}
    (hr : Ready g tr n) (hR : .bad n ∈ tr → Restartable (W n) (P n)) (hp : Present (P n) D) :
    DataInv g R W D₀ (oneByOne P order D₀) (tr ++ [.skip n]) D cur := by
  refine ⟨hi.off, fun m hm h => hi.fresh m hm (fun h' => h (List.mem_append_left _ h')), fun m hm h l hw => ?_,
    fun m h => hi.held m (by simpa [Held] using h)⟩
  by_cases e : m = n
  · subst e
    rw [← hi.start hg hd ho hl hr hR l hw]
    exact (hp l).symm
  · refine hi.done m hm ?_ l hw
    have : ¬ (m = n) := e
    simpa [Done, this] using h

theorem DataInv.hand (hi : DataInv g R W D₀ (oneByOne P order D₀) tr D cur) (hl : Legal g tr) {n : N}
    (hr : Ready g tr n) (hR : .bad n ∈ tr → Restartable (W n) (P n)) :
    DataInv g R W D₀ (oneByOne P order D₀) (tr ++ [.hand n]) D (fun m => if some n = some m then P m else cur m) := by
  refine ⟨hi.off, fun m hm h => hi.fresh m hm (fun h' => h (List.mem_append_left _ h')),
    fun m hm h => hi.done m hm (by simpa [Done] using h), fun m h => ?_⟩
  by_cases e : n = m
  · subst e
    rw [if_pos rfl]
    exact ⟨hd.uses n hr.1, hi.start hg hd ho hl hr hR⟩
  · rw [if_neg (fun h => e (Option.some.inj h))]
    exact hi.held m (by simpa [Held, e] using h)

theorem DataInv.skips {skips : List N} : ∀ {tr : List (Ev N)},
    DataInv g R W D₀ (oneByOne P order D₀) tr D cur → Legal g (tr ++ skips.map .skip) →
    (∀ n, .bad n ∈ tr → Restartable (W n) (P n)) → (∀ n ∈ skips, Present (P n) D) →
    DataInv g R W D₀ (oneByOne P order D₀) (tr ++ skips.map .skip) D cur := by
  induction skips with
  | nil => intro tr hi _ _ _; simpa using hi
  | cons n ns ih =>
    intro tr hi hl hR hp
    rw [List.map_cons] at hl ⊢
    have hr : Ready g tr n := hl tr (.skip n) _ rfl
    have hl' : Legal g tr := fun p e q hx => hl p e (q ++ .skip n :: ns.map .skip) (by rw [hx]; simp)
    have h1 := hi.skip hg hd ho hl' hr (hR n) (hp n (by simp))
    have e : tr ++ Ev.skip n :: ns.map .skip = (tr ++ [.skip n]) ++ ns.map .skip := by simp
    rw [e] at hl ⊢
    refine ih h1 hl (fun m hm => hR m ?_) (fun m hm => hp m (List.mem_cons_of_mem _ hm))
    simpa using hm

omit ho in
theorem DataInv.step (hi : DataInv g R W D₀ (oneByOne P order D₀) tr D cur) {st : Sched N T K} (hrun : Run g tr st)
    {n : N} (hn : Held tr n) {q : Prog L V} {D' : L → V} (hs : (cur n).step D = some (q, D')) :
    DataInv g R W D₀ (oneByOne P order D₀) tr D' (upd cur n q) := by
  obtain ⟨c1, c2⟩ := hi.held n hn
  obtain ⟨s1, s2, s3⟩ := Prog.uses_step c1 hs
  have hl := loose_legal hg hrun
  have hmem : ∀ m, Held tr m → m ∈ g.nodes ∧ ¬ Done tr m ∧ ∀ u ∈ g.up m, Done tr u := by
    intro m hm
    have hh : Ev.hand m ∈ tr := by
      unfold Held at hm
      exact List.count_pos_iff.1 (by omega)
    obtain ⟨pre, post, e⟩ := List.append_of_mem hh
    have hr : Ready g pre m := hl pre _ post e
    exact ⟨hr.1, ((C19_loose_disjoint_partial hg hrun m).2.1 hm).1, fun u hu =>
      (hr.2.1 u hu).imp (fun h => e ▸ List.mem_append_left _ h) (fun h => e ▸ List.mem_append_left _ h)⟩
  have hsame : ∀ l, ¬ W n l → D' l = D l := fun l hw => by
    by_contra h
    exact hw (s2 l h)
  obtain ⟨n1, n2, n3⟩ := hmem n hn
  refine ⟨fun l h => ?_, fun m hm h l hw => ?_, fun m hm h l hw => ?_, fun m h => ?_⟩
  · rw [hsame l (h n n1), hi.off l h]
  · rw [hsame l (fun h' => ?_), hi.fresh m hm h l hw]
    have := hd.apart m hm n n1 l hw h'
    subst this
    unfold Held at hn
    exact h (List.count_pos_iff.1 (by omega))
  · rw [hsame l (fun h' => ?_), hi.done m hm h l hw]
    have := hd.apart m hm n n1 l hw h'
    subst this
    exact n2 h
  · by_cases e : m = n
    · subst e
      have eq : upd cur m q m = q := if_pos rfl
      rw [eq, s3]
      exact ⟨s1, c2⟩
    · have eq : upd cur n q m = cur m := if_neg e
      obtain ⟨m1, m2, m3⟩ := hmem m h
      obtain ⟨d1, d2⟩ := hi.held m h
      rw [eq]
      refine ⟨d1, fun l hw => ?_⟩
      rw [← d2 l hw]
      refine Prog.run_congr d1 (fun x hx => hsame x (fun hnx => ?_)) l (Or.inr hw)
      rcases hx with hx | hx
      · rcases hd.ordered n n1 m m1 x hnx hx (Ne.symm e) with h' | h'
        · exact n2 (legal_anc_done hl m3 h')
        · exact m2 (legal_anc_done hl n3 h')
      · exact e (hd.apart m m1 n n1 x hx hnx)

end

/-- The execution without the data. -/
theorem DataRun.run {tr : List (Ev N)} {st : Sched N T K} {D : L → V} {cur : N → Prog L V}
    (h : DataRun g P D₀ tr st D cur) : Run g tr st := by
  induction h with
  | init => exact .init
  | acquire chk t _ ha _ ih => exact .acquire chk t ih ha
  | step _ _ _ ih => exact ih
  | good pick _ h1 h2 _ h3 ih => exact .good pick ih h1 h2 h3
  | bad pick _ h1 h2 h3 ih => exact .bad pick ih h1 h2 h3

theorem DataRun.inv (hg : g.Loose) (hd : Disciplined g R W P) (ho : Topological g order) {tr : List (Ev N)}
    {st : Sched N T K} {D : L → V} {cur : N → Prog L V} (h : DataRun g P D₀ tr st D cur) :
    (∀ n, .bad n ∈ tr → Restartable (W n) (P n)) → DataInv g R W D₀ (oneByOne P order D₀) tr D cur := by
  induction h with
  | init =>
    intro _
    exact ⟨fun _ _ => rfl, fun _ _ _ _ _ => rfl, fun n _ h => (by rcases h with h | h <;> cases h),
      fun n h => absurd h (by simp [Held])⟩
  | @acquire tr st st' D cur skips r chk t hr hacq hp ih =>
    intro hR
    have hl := loose_legal hg (Run.acquire chk t hr.run hacq)
    have hi := ih (fun n hn => hR n (List.mem_append_left _ hn))
    cases r with
    | none =>
      have e : acquireEvents skips (none : Option N) = skips.map .skip := by simp [acquireEvents]
      rw [e] at hl hR ⊢
      have := hi.skips hg hd ho hl (fun n hn => hR n (List.mem_append_left _ hn)) hp
      refine ⟨this.off, this.fresh, this.done, fun n hn => ?_⟩
      rw [if_neg (by simp)]
      exact this.held n hn
    | some n =>
      have e : tr ++ acquireEvents skips (some n) = (tr ++ skips.map .skip) ++ [.hand n] := by simp [acquireEvents]
      rw [e] at hl hR ⊢
      have hl' : Legal g (tr ++ skips.map .skip) := fun p e q hx => hl p e (q ++ [.hand n]) (by rw [hx]; simp)
      exact (hi.skips hg hd ho hl' (fun m hm => hR m (by simp [hm])) hp).hand hg hd ho hl' (hl _ _ [] rfl)
        (fun h => hR n (List.mem_append_left _ h))
  | step hr hn hs ih => exact fun hR => (ih hR).step hg hd hr.run hn hs
  | @good tr st st' D cur n pick hr hh hp hc hx ih =>
    intro hR
    have hi := ih (fun n hn => hR n (List.mem_append_left _ hn))
    refine ⟨hi.off, fun m hm h => hi.fresh m hm (fun h' => h (List.mem_append_left _ h')), fun m hm h l hw => ?_,
      fun m h => hi.held m ?_⟩
    · by_cases e : m = n
      · subst e
        have := (hi.held m hh).2 l hw
        rw [hc] at this
        exact this
      · exact hi.done m hm (by simpa [Done, e] using h) l hw
    · unfold Held at h ⊢
      have h1 : (tr ++ [Ev.good n]).count (.hand m) = tr.count (.hand m) := by simp
      have h2 : tr.count (.good m) ≤ (tr ++ [Ev.good n]).count (.good m) := by simp
      have h3 : tr.count (.bad m) ≤ (tr ++ [Ev.good n]).count (.bad m) := by simp
      omega
  | @bad tr st st' D cur n pick hr hh hp hx ih =>
    intro hR
    have hi := ih (fun n hn => hR n (List.mem_append_left _ hn))
    refine ⟨hi.off, fun m hm h => hi.fresh m hm (fun h' => h (List.mem_append_left _ h')), fun m hm h l hw =>
      hi.done m hm (by simpa [Done] using h) l hw, fun m h => hi.held m ?_⟩
    unfold Held at h ⊢
    have h1 : (tr ++ [Ev.bad n]).count (.hand m) = tr.count (.hand m) := by simp
    have h2 : tr.count (.good m) ≤ (tr ++ [Ev.bad n]).count (.good m) := by simp
    have h3 : tr.count (.bad m) ≤ (tr ++ [Ev.bad n]).count (.bad m) := by simp
    omega

/-- A program can be run to its end. -/
theorem DataRun.finish {tr : List (Ev N)} {st : Sched N T K} {n : N} (hn : Held tr n) (q : Prog L V) :
    ∀ {D : L → V} {cur : N → Prog L V}, DataRun g P D₀ tr st D cur → cur n = q →
      DataRun g P D₀ tr st (q.run D) (upd cur n .done) := by
  induction q with
  | done =>
    intro D cur h e
    have : upd cur n .done = cur := by
      funext m
      unfold upd
      split
      · next h => rw [h, e]
      · rfl
    rw [this]
    exact h
  | look l k ih =>
    intro D cur h e
    have h1 := DataRun.step (q := k (D l)) (D' := D) h hn (by rw [e]; rfl)
    have h2 := ih (D l) h1 (if_pos rfl)
    have : upd (upd cur n (k (D l))) n .done = upd cur n .done := by
      funext m; unfold upd; split <;> rfl
    rw [this] at h2
    exact h2
  | put l v k ih =>
    intro D cur h e
    have h1 := DataRun.step (q := k) (D' := upd D l v) h hn (by rw [e]; rfl)
    have h2 := ih h1 (if_pos rfl)
    have : upd (upd cur n k) n .done = upd cur n .done := by
      funext m; unfold upd; split <;> rfl
    rw [this] at h2
    exact h2

end Verif
