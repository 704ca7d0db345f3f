import Verif.Spec.Marks
import Verif.Proofs.Data
import Verif.Proofs.AnyGraph
import Verif.Proofs.SerialData

/-! # Data and marks: what stays true from one run to the next -/

namespace Verif

open Spec

variable {N T K L V : Type} [DecidableEq N] [DecidableEq T] [DecidableEq K] [DecidableEq L] {g : DGraph N T K}
  {R W : N → L → Prop} {P : N → Prog L V} {D₀ D D' : L → V} {order : List N} {M M' : N → Prop} {H : N → Prop}

/-- What is known about data and marks; `H` are the blocks that were handed out in any run. -/
structure Ground (g : DGraph N T K) (W : N → L → Prop) (D₀ F : L → V) (H : N → Prop) (D : L → V) (M : N → Prop) :
    Prop where
  off : ∀ l, (∀ n ∈ g.nodes, ¬ W n l) → D l = D₀ l
  node : ∀ n, H n → n ∈ g.nodes
  fresh : ∀ n ∈ g.nodes, ¬ H n → ∀ l, W n l → D l = D₀ l
  marked : ∀ n, M n → H n ∧ ∀ l, W n l → D l = F l
  up : ∀ n, H n → ∀ a, Anc g a n → M a

omit [DecidableEq N] [DecidableEq T] [DecidableEq K] [DecidableEq L] in
/-- All blocks upstream of a block whose direct predecessors are marked are marked. -/
theorem Ground.anc {F : L → V} (hi : Ground g W D₀ F H D M) {n : N} (hr : ∀ u ∈ g.up n, M u) {a : N} (ha : Anc g a n) :
    M a := by
  rcases Relation.TransGen.tail'_iff.1 ha with ⟨u, h1, h2⟩
  rcases Relation.reflTransGen_iff_eq_or_transGen.1 h1 with rfl | h3
  · exact hr _ h2
  · exact hi.up u (hi.marked u (hr u h2)).1 a h3

omit [DecidableEq N] [DecidableEq T] [DecidableEq K] [DecidableEq L] in
/-- Blocks are handed out. -/
theorem Ground.hand {F : L → V} (hi : Ground g W D₀ F H D M) {A : N → Prop}
    (hA : ∀ n, A n → n ∈ g.nodes ∧ ∀ u ∈ g.up n, M u) : Ground g W D₀ F (fun n => A n ∨ H n) D M :=
  ⟨hi.off, fun n h => h.elim (fun h => (hA n h).1) (hi.node n), fun n hn h => hi.fresh n hn (fun h' => h (Or.inr h')),
    fun n h => ⟨Or.inr (hi.marked n h).1, (hi.marked n h).2⟩,
    fun n h a ha => h.elim (fun h => hi.anc (hA n h).2 ha) (fun h => hi.up n h a ha)⟩

section
variable (hg : g.Loose) (hd : Disciplined g R W P) (ho : Topological g order)

omit [DecidableEq N] [DecidableEq T] [DecidableEq K] in
include hg hd ho in
/-- A block that is handed out finds everything as it should be. -/
theorem Ground.start (hi : Ground g W D₀ (oneByOne P order D₀) H D M)
    (hR : ∀ n ∈ g.nodes, Restartable (W n) (P n)) {n : N} (hn : n ∈ g.nodes) (hr : ∀ u ∈ g.up n, M u)
    (hm : ¬ M n) : ∀ l, W n l → (P n).run D l = oneByOne P order D₀ l := by
  intro l hlw
  obtain ⟨pre, post, e⟩ := List.append_of_mem ((ho.mem n).2 hn)
  rw [oneByOne_at hd ho e hlw]
  have hreads : ∀ x, R n x → ¬ W n x → D x = oneByOne P pre D₀ x := by
    intro x hx hnx
    by_cases hw : ∃ a ∈ g.nodes, W a x
    · obtain ⟨a, ha, hax⟩ := hw
      have hne : a ≠ n := fun h => hnx (h ▸ hax)
      rcases hd.ordered a ha n hn x hax hx hne with h | h
      · rw [(hi.marked a (hi.anc hr h)).2 x hax]
        exact oneByOne_earlier hd ho e (ho.before hg h hn e) hax
      · rw [hi.fresh a ha (fun hh => hm (hi.up a hh n h)) x hax]
        exact (oneByOne_later hd ho e (List.mem_cons_of_mem _ (ho.after hg h ha e)) hax).symm
    · have hw' : ∀ a ∈ g.nodes, ¬ W a x := fun a ha h => hw ⟨a, ha, h⟩
      rw [hi.off x hw']
      exact (oneByOne_frame (R := R) (W := W) (fun m hm => hd.uses m (ho.mem_split e (by simp [hm])))
        (fun m hm => hw' m (ho.mem_split e (by simp [hm]))) _).symm
  classical
  rw [hR n hn D (fun x => if W n x then oneByOne P pre D₀ x else D x) (fun x hx => (if_neg hx).symm) l hlw]
  refine Prog.run_congr (hd.uses n hn) (fun x hx => ?_) l (Or.inr hlw)
  by_cases hw : W n x
  · exact if_pos hw
  · rw [if_neg hw]
    exact hreads x (hx.resolve_right hw) hw

omit [DecidableEq N] [DecidableEq T] [DecidableEq K] [DecidableEq L] in
include hd in
/-- A block that was handed out and is not marked stores something. -/
theorem Ground.store {F : L → V} (hi : Ground g W D₀ F H D M) {n : N} (hn : H n) (hm : ¬ M n)
    (hsame : ∀ l, ¬ W n l → D' l = D l) : Ground g W D₀ F H D' M := by
  have hnn := hi.node n hn
  have hother : ∀ m ∈ g.nodes, m ≠ n → ∀ l, W m l → D' l = D l := fun m hm hne l hw =>
    hsame l (fun h' => hne (hd.apart m hm n hnn l hw h'))
  refine ⟨fun l h => ?_, hi.node, fun m hmn h l hw => ?_, fun m h => ⟨(hi.marked m h).1, fun l hw => ?_⟩, hi.up⟩
  · rw [hsame l (h n hnn), hi.off l h]
  · rw [hother m hmn (fun e => h (e ▸ hn)) l hw, hi.fresh m hmn h l hw]
  · rw [hother m (hi.node m (hi.marked m h).1) (fun e => hm (e ▸ h)) l hw, (hi.marked m h).2 l hw]

omit [DecidableEq N] [DecidableEq T] [DecidableEq K] in
include hd in
/-- What another block that was handed out and is not marked has still to do comes to the same result. -/
theorem Ground.others {F : L → V} (hi : Ground g W D₀ F H D M) {n : N} (hn : H n) (hm : ¬ M n)
    (hsame : ∀ l, ¬ W n l → D' l = D l) {m : N} (hmH : H m) (hmm : ¬ M m) (hne : m ≠ n) {q : Prog L V}
    (hq : q.Uses (R m) (W m)) (hrun : ∀ l, W m l → q.run D l = F l) : ∀ l, W m l → q.run D' l = F l := by
  have hnn := hi.node n hn
  have hmn := hi.node m hmH
  intro l hw
  rw [← hrun l hw]
  refine Prog.run_congr hq (fun x hx => hsame x (fun hnx => ?_)) l (Or.inr hw)
  rcases hx with hx | hx
  · rcases hd.ordered n hnn m hmn x hnx hx (Ne.symm hne) with h' | h'
    · exact hm (hi.up m hmH n h')
    · exact hmm (hi.up n hn m h')
  · exact hne (hd.apart m hmn n hnn x hx hnx)

omit [DecidableEq N] [DecidableEq T] [DecidableEq K] [DecidableEq L] in
/-- A block is marked. -/
theorem Ground.mark {F : L → V} (hi : Ground g W D₀ F H D M) {n : N} (hn : H n) (hf : ∀ l, W n l → D l = F l) :
    Ground g W D₀ F H D (fun m => m = n ∨ M m) :=
  ⟨hi.off, hi.node, hi.fresh, fun m hm => hm.elim (fun e => e ▸ ⟨hn, hf⟩) (hi.marked m),
    fun m hm a ha => Or.inr (hi.up m hm a ha)⟩

end

omit [DecidableEq N] [DecidableEq T] [DecidableEq K] [DecidableEq L] in
theorem Ground.congr {F : L → V} {H' : N → Prop} (hi : Ground g W D₀ F H D M) (h : ∀ n, H n ↔ H' n) :
    Ground g W D₀ F H' D M := by
  have : H = H' := funext fun n => propext (h n)
  exact this ▸ hi

omit [DecidableEq N] [DecidableEq T] [DecidableEq K] [DecidableEq L] in
theorem Ground.init (F : L → V) : Ground g W D₀ F (fun _ => False) D₀ (fun _ => False) :=
  ⟨fun _ _ => rfl, fun _ h => h.elim, fun _ _ _ _ _ => rfl, fun _ h => h.elim, fun _ h => h.elim⟩

end Verif
