import Verif.Spec.Attempts
import Verif.Proofs.ClusterCalm

/-! # Worker processes store only where blocks store -/

namespace Verif

open Spec

variable {N T K S L V : Type} [DecidableEq N] [DecidableEq T] [DecidableEq K] [DecidableEq S] [DecidableEq L]
  {g : DGraph N T K} {c : SysConf T} {R W : N → L → Prop} {P : N → Prog L V} {D₀ D : L → V}
  {may : Cluster N T K S → S → Prop} {es : List (ClEv N T S)} {x : Cluster N T K S} {cur : S → Prog L V}

theorem ClDataRun.frame (hg : g.Loose) (hu : ∀ n ∈ g.nodes, (P n).Uses (R n) (W n))
    (h : ClDataRun g c P D₀ may es x D cur) :
    (∀ l, (∀ n ∈ g.nodes, ¬ W n l) → D l = D₀ l) ∧
    (∀ s n, workOf x s = some n → n ∈ g.nodes ∧ (cur s).Uses (R n) (W n)) := by
  induction h with
  | init h =>
    unfold Cluster.init at h
    split at h
    · cases h
    · cases h
      exact ⟨fun _ _ => rfl, fun s n hn => (by cases hn)⟩
  | @event es x y D cur e hrun hl hs hsk hwell ih =>
    have hcl := ClDataRun.run hrun
    have hi := ClRun.inv hg hcl
    refine ⟨ih.1, fun s n hn => ?_⟩
    rcases hwx : workOf x s with _ | m
    · obtain ⟨k, body, hk, hh, -, -⟩ := starts_has hg hi hl hs hwx hn
      obtain ⟨hnn, -⟩ := has_done hg hcl hk hh
      have e1 : begun P x y cur s = P n := by
        unfold begun
        rw [hn, hwx]
        exact if_pos rfl
      rw [e1]
      exact ⟨hnn, hu n hnn⟩
    · obtain ⟨rfl, -⟩ := works_on hg hi hl hs hwx hn
      have e1 : begun P x y cur s = cur s := by
        unfold begun
        rw [hn, hwx]
        exact if_neg (by simp)
      rw [e1]
      exact ih.2 s m hwx
  | @work es x D D' cur s n q hrun hmay hw hq ih =>
    have hsn := workOf_iff.2 hw
    obtain ⟨hnn, hcu⟩ := ih.2 s n hsn
    obtain ⟨s1, s2, -⟩ := Prog.uses_step hcu hq
    refine ⟨fun l hl => ?_, fun s' m hm => ?_⟩
    · rw [← ih.1 l hl]
      by_contra h
      exact hl n hnn (s2 l h)
    · by_cases e : s' = s
      · subst e
        rw [hsn] at hm
        cases hm
        have e1 : upd cur s' q s' = q := if_pos rfl
        rw [e1]
        exact ⟨hnn, s1⟩
      · have e1 : upd cur s q s' = cur s' := if_neg e
        rw [e1]
        exact ih.2 s' m hm

end Verif
