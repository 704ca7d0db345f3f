import Verif.Spec.SerialData
import Verif.Proofs.Data
import Verif.Proofs.SerialRun

/-! # Executions of the serial server with data are executions of the scheduler with data -/

namespace Verif

open Spec

variable {N T K L V : Type} [DecidableEq N] [DecidableEq T] [DecidableEq K] [DecidableEq L] {g : DGraph N T K}
  {served : List T} {P : N → Prog L V} {D₀ D : L → V} {ks : List (SerTick N T)} {σ σ' : Serial N T K} {k : SerTick N T}

theorem SerDataRun.run (h : SerDataRun g served P D₀ ks σ D) : SerRun g served ks σ := by
  induction h with
  | init => exact .init
  | pass _ h1 h2 h3 _ _ ih => exact .pass ih h1 h2 h3

theorem DataRun.steps {tr : List (Ev N)} {st : Sched N T K} {n : N} (hn : Held tr n) {q q' : Prog L V} {D D' : L → V}
    (hs : q.Steps D q' D') : ∀ {cur : N → Prog L V}, DataRun g P D₀ tr st D cur → cur n = q →
      ∃ cur', DataRun g P D₀ tr st D' cur' := by
  induction hs with
  | refl => exact fun h _ => ⟨_, h⟩
  | step h1 _ ih =>
    intro cur h e
    exact ih (DataRun.step h hn (by rw [e]; exact h1)) (if_pos rfl)

theorem DataRun.acquireAny {chk : T → Nat → N → Check} : ∀ {ts : List T} {tr : List (Ev N)} {st st' : Sched N T K}
    {cur : N → Prog L V} {skips : List N} {r : Option N}, DataRun g P D₀ tr st D cur →
    Serial.acquireAny g chk ts st = .ok (skips, r, st') → (∀ n ∈ skips, Present (P n) D) →
    ∃ cur', DataRun g P D₀ (tr ++ acquireEvents skips r) st' D cur' ∧ ∀ n, r = some n → cur' n = P n := by
  intro ts
  induction ts with
  | nil =>
    intro tr st st' cur skips r h ha _
    cases ha
    exact ⟨cur, by simpa [acquireEvents] using h, by simp⟩
  | cons t ts ih =>
    intro tr st st' cur skips r h ha hp
    unfold Serial.acquireAny at ha
    split at ha
    · cases ha
    · next sk n st1 e1 =>
      cases ha
      exact ⟨_, DataRun.acquire (chk t) t h e1 hp, fun m hm => if_pos hm⟩
    · next sk st1 e1 =>
      split at ha
      · cases ha
      · next sk' r' st2 e2 =>
        cases ha
        have h1 := DataRun.acquire (chk t) t h e1 (fun n hn => hp n (List.mem_append_left _ hn))
        obtain ⟨cur', h2, h3⟩ := ih h1 e2 (fun n hn => hp n (List.mem_append_right _ hn))
        refine ⟨cur', ?_, h3⟩
        have e : tr ++ acquireEvents (sk ++ sk') r =
            tr ++ acquireEvents sk (none : Option N) ++ acquireEvents sk' r := by
          simp [acquireEvents]
        rw [e]
        exact h2

/-- A block that was just handed out is out. -/
theorem held_acquired (hg : g.Loose) {tr : List (Ev N)} {st : Sched N T K} (h : Run g tr st) (skips : List N) (n : N) :
    Held (tr ++ acquireEvents skips (some n)) n := by
  have h1 := ((h.facts hg).bal n).1
  have h5 : ∀ e : Ev N, (∀ x, e ≠ .skip x) → (skips.map Ev.skip).count e = 0 := by
    intro e he
    rw [List.count_eq_zero]
    intro hm
    obtain ⟨x, _, rfl⟩ := List.mem_map.1 hm
    exact he x rfl
  unfold Held
  rw [acquireEvents_some]
  simp only [List.count_append, h5 (.good n) (by simp), h5 (.bad n) (by simp), h5 (.hand n) (by simp)]
  simp
  omega

theorem SerDataRun.dataRun (hg : g.Loose) (h : SerDataRun g served P D₀ ks σ D) :
    ∃ cur, DataRun g P D₀ (serEvs σ.out) σ.sched D cur := by
  induction h with
  | init => exact ⟨P, .init⟩
  | @pass ks σ σ' k D D' hr he hpick hpass hsk hdid ih =>
    obtain ⟨cur, ih⟩ := ih
    have hi := hr.run.inv hg
    rcases pass_cases hg hi he hpick with ⟨σ1, skips, e1, hl⟩ | ⟨skips, n, st, _, _, ⟨_, e1⟩ | ⟨_, _, e1⟩ | ⟨σ1, e1, hd⟩⟩
    · rw [hpass] at e1
      cases e1
      have hdrop : σ'.out.drop σ.out.length = skips.map .skip ++ [.exit] := by
        rw [hl.out, List.append_assoc, List.drop_left]
      rw [hdrop] at hsk hdid
      have hD : D' = D := by
        rcases hdid with ⟨n, hn, _⟩ | ⟨_, h⟩
        · simp at hn
        · exact h
      subst hD
      rw [hl.evs]
      rcases hl.why with ⟨_, h1, h2⟩ | h1
      · rw [h1, h2]
        exact ⟨cur, by simpa using ih⟩
      · obtain ⟨cur', h2, _⟩ := DataRun.acquireAny ih h1 (fun n hn => hsk n (by simp [hn]))
        exact ⟨cur', by simpa [acquireEvents] using h2⟩
    · rw [hpass] at e1; cases e1
    · rw [hpass] at e1; cases e1
    · rw [hpass] at e1
      cases e1
      obtain ⟨s, d, e, o1, o2, o3, o4⟩ := hd.out
      have hdrop : σ'.out.drop σ.out.length = skips.map .skip ++ (s ++
          ([.acquired (g.task n), .call n, .release n (σ.statusAfter n (k.proc n)), .released (g.task n)] ++ (d ++ e))) := by
        rw [o1]
        simp only [List.append_assoc, List.drop_left]
      rw [hdrop] at hsk hdid
      obtain ⟨st1, a1, a2⟩ := hd.acquired
      obtain ⟨cur', h2, h3⟩ := DataRun.acquireAny ih a1 (fun n hn => hsk n (by simp [hn]))
      have hheld := held_acquired hg ih.run skips n
      have hcall : CallDid (P n) (k.proc n) D D' := by
        rcases hdid with ⟨m, hm, h⟩ | ⟨h, _⟩
        · have : m = n := by
            rw [o2, o3, o4] at hm
            simp only [List.mem_append, List.mem_map] at hm
            rcases hm with ⟨_, _, h⟩ | hm | hm | hm | hm
            · cases h
            · split at hm <;> simp at hm
            · simpa using hm
            · split at hm <;> simp at hm
            · split at hm <;> simp at hm
          exact this ▸ h
        · exact absurd (by simp) (h n)
      rw [hd.evs]
      have hrel : ∀ status, σ.statusAfter n (k.proc n) = status → st1.releaseBlock g k.pick n status = .ok σ'.sched :=
        fun _ e => e ▸ a2
      unfold CallDid at hcall
      split at hcall
      · next hf =>
        obtain ⟨q, hq⟩ := hcall
        obtain ⟨cur2, h4⟩ := DataRun.steps hheld hq h2 (h3 n rfl)
        have hst : σ.statusAfter n (k.proc n) = .failed := by rw [hf]; rfl
        rw [hst]
        exact ⟨_, DataRun.bad k.pick h4 hheld hpick (hrel _ hst)⟩
      · have h4 := DataRun.finish hheld _ h2 (h3 n rfl)
        rw [← hcall] at h4
        rcases statusAfter_cases σ n (k.proc n) with hst | hst
        · rw [hst]
          exact ⟨_, DataRun.bad k.pick h4 hheld hpick (hrel _ hst)⟩
        · rw [hst]
          exact ⟨_, DataRun.good k.pick h4 hheld hpick (if_pos rfl) (hrel _ hst)⟩

theorem SerDataRun.raised (hg : g.Loose) (h : SerDataRun g served P D₀ ks σ D) {D' : L → V}
    (hr : SerDataRaises g served P σ k D D') : ∃ es st cur, DataRun g P D₀ (serEvs σ.out ++ es) st D' cur ∧
      (∀ n, .bad n ∉ es) ∧ ∀ n, .hand n ∈ es → n ∈ g.nodes := by
  obtain ⟨he, hpick, _, n, σ', hpass, hcall, hsk, q, hq⟩ := hr
  obtain ⟨cur, ih⟩ := h.dataRun hg
  have hi := h.run.inv hg
  have hpick' : LegalPick ({ k with proc := fun _ => .keep } : SerTick N T).pick := hpick
  rcases pass_cases hg hi he hpick' with ⟨σ1, skips, e1, hl⟩ | ⟨skips, m, st, _, hready, ⟨_, e1⟩ | ⟨_, _, e1⟩ | ⟨σ1, e1, hd⟩⟩
  · rw [hpass] at e1
    cases e1
    have hdrop : σ'.out.drop σ.out.length = skips.map .skip ++ [.exit] := by
      rw [hl.out, List.append_assoc, List.drop_left]
    rw [hdrop] at hcall
    simp at hcall
  · rw [hpass] at e1; cases e1
  · rw [hpass] at e1; cases e1
  · rw [hpass] at e1
    cases e1
    obtain ⟨s, d, e, o1, o2, o3, o4⟩ := hd.out
    have hdrop : σ'.out.drop σ.out.length = skips.map .skip ++ (s ++
        ([.acquired (g.task m), .call m, .release m (σ.statusAfter m .keep), .released (g.task m)] ++ (d ++ e))) := by
      rw [o1]
      simp only [List.append_assoc, List.drop_left]
    rw [hdrop] at hsk hcall
    obtain ⟨st1, a1, a2⟩ := hd.acquired
    obtain ⟨cur', h2, h3⟩ := DataRun.acquireAny ih a1 (fun n hn => hsk n (by simp [hn]))
    have hheld := held_acquired hg ih.run skips m
    have hnm : n = m := by
      rw [o2, o3, o4] at hcall
      simp only [List.mem_append, List.mem_map] at hcall
      rcases hcall with ⟨_, _, h⟩ | hm | hm | hm | hm
      · cases h
      · split at hm <;> simp at hm
      · simpa using hm
      · split at hm <;> simp at hm
      · split at hm <;> simp at hm
    subst hnm
    obtain ⟨cur2, h4⟩ := DataRun.steps hheld hq h2 (h3 n rfl)
    refine ⟨_, _, _, h4, fun x hx => ?_, fun x hx => ?_⟩
    · rw [acquireEvents_some] at hx
      simp at hx
    · rw [acquireEvents_some] at hx
      have : x = n := by simpa using hx
      rw [this]
      exact hready.1

theorem Prog.steps_run : ∀ (q : Prog L V) (D : L → V), q.Steps D .done (q.run D)
  | .done, _ => .refl
  | .look l k, D => .step (q' := k (D l)) (D' := D) rfl (Prog.steps_run (k (D l)) D)
  | .put l v k, D => .step (q' := k) (D' := upd D l v) rfl (Prog.steps_run k _)

theorem pass_prefix (hg : g.Loose) (h : SerInv g served σ) (he : σ.ended = false) (hpick : LegalPick k.pick)
    (hpass : σ.pass g served k = .ok σ') : σ.out <+: σ'.out := by
  rcases pass_cases hg h he hpick with ⟨σ1, skips, e1, hl⟩ | ⟨skips, n, st, _, _, ⟨_, e1⟩ | ⟨_, _, e1⟩ | ⟨σ1, e1, hd⟩⟩
  · rw [hpass] at e1
    cases e1
    rw [hl.out, List.append_assoc]
    exact List.prefix_append _ _
  · rw [hpass] at e1; cases e1
  · rw [hpass] at e1; cases e1
  · rw [hpass] at e1
    cases e1
    obtain ⟨s, d, e, o1, _⟩ := hd.out
    rw [o1]
    simp only [List.append_assoc]
    exact List.prefix_append _ _

end Verif
