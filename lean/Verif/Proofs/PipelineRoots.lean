import Verif.Proofs.PipelineOK
import Verif.Spec.Tally

/-! # The roots of a pipeline -/

namespace Verif

open Spec

variable {d : Nat} {tasks : List (Task d)} {p : Pipeline d}

/-- Every pipeline whose scheduler can be built has proper roots. -/
theorem Pipeline.goodRoots (hp : Pipeline.init tasks = .ok p) (hid : UniqueIds tasks) (hw : p.Wf)
    (hr : p.RootLevels) : GoodRoots p.view := by
  have hb := (built_of_init hp hid).1
  have hroot : ∀ x ∈ p.view.rootTasks, ∃ gx bs rs, p.graphs x = some gx ∧ gx.blocks = .ok bs ∧
      gx.rootGen = .ok rs ∧ p.view.rootGen x = rs ∧ p.view.numRoots x = rs.length ∧ 0 < gx.numLevels := by
    intro x hx
    obtain ⟨hx1, hx2⟩ := (mem_rootTasks x).1 hx
    obtain ⟨gx, hgx, _⟩ := hb.graph x hx1
    obtain ⟨bs, hbs⟩ := Props.C05_enumeration_ok gx (hw x gx hgx).1
    obtain ⟨rs, h1, h2, h3⟩ := Props.C05_num_roots gx (hw x gx hgx).1 (hw x gx hgx).2.1
      (hr x gx hx2 hgx)
    exact ⟨gx, bs, rs, hgx, hbs, h1, okOr_ok ((bind_graphOf hgx _).trans h1), okOr_ok ((bind_graphOf hgx _).trans h3),
      hr x gx hx2 hgx⟩
  refine ⟨hb.inv.nodup.filter _, fun t ht => ?_, fun t ht n hn => ?_⟩
  · obtain ⟨_, _, rs, _, _, _, h1, h2, _⟩ := hroot t ht
    rw [h1, h2]
  · obtain ⟨gx, bs, rs, h1, h2, h3, h4, _, h5⟩ := hroot t ht
    rw [h4] at hn
    exact blockOf_taskId hb hw
      ⟨gx, bs, h1, h2, ((Props.C10_roots gx (hw t gx h1).1 (hw t gx h1).2.1 h5 h2 h3 n).1 hn).1⟩

end Verif
