import Verif.Proofs.ClusterMsg
import Verif.Proofs.ClusterProj
import Verif.Proofs.Data

/-! # Programs that store no temporary values: helper lemmas -/

set_option linter.unusedSectionVars false

namespace Verif

open Spec

section
variable {L V : Type} [DecidableEq L] {R W : L → Prop} {F F' D D' : L → V}

theorem Spec.Stores.congr {q : Prog L V} (h : ∀ l, R l ∨ W l → F l = F' l) : Stores R W F q → Stores R W F' q := by
  induction q with
  | done => exact id
  | look l k ih =>
    rintro ⟨h1, h2⟩
    refine ⟨h1, ?_⟩
    rw [← h l (Or.inl h1.1)]
    exact ih _ h2
  | put l v k ih =>
    rintro ⟨h1, h2⟩
    exact ⟨⟨h1.1, h1.2.trans (h l (Or.inr h1.1))⟩, ih h2⟩

/-- If others store what should be there, the result is the same. -/
theorem Spec.Stores.stays {q : Prog L V} : ∀ {D D' : L → V}, Stores R W F q →
    (∀ l, R l → ¬ W l → D l = F l ∧ D' l = F l) → (∀ l, W l → D' l = D l ∨ D' l = F l) →
    ∀ l, W l → q.run D l = F l → q.run D' l = F l := by
  induction q with
  | done =>
    intro D D' _ _ h l hl h1
    rcases h l hl with h2 | h2
    · exact h2.trans h1
    · exact h2
  | look m k ih =>
    intro D D' hs hr h l hl h1
    obtain ⟨⟨s1, s2⟩, s3⟩ := hs
    obtain ⟨r1, r2⟩ := hr m s1 s2
    change (k (D m)).run D l = F l at h1
    change (k (D' m)).run D' l = F l
    rw [r1] at h1
    rw [r2]
    exact ih _ s3 hr h l hl h1
  | put m v k ih =>
    intro D D' hs hr h l hl h1
    obtain ⟨⟨s1, s2⟩, s3⟩ := hs
    refine ih (D := upd D m v) (D' := upd D' m v) s3 ?_ ?_ l hl h1
    · intro a ha ha'
      have hne : a ≠ m := fun e => ha' (e ▸ s1)
      unfold upd
      rw [if_neg hne, if_neg hne]
      exact hr a ha ha'
    · intro a ha
      unfold upd
      by_cases e : a = m
      · left; rw [if_pos e, if_pos e]
      · rw [if_neg e, if_neg e]; exact h a ha

/-- One step of such a program. -/
theorem Spec.Stores.step {q q' : Prog L V} (h : Stores R W F q) (hr : ∀ l, R l → ¬ W l → D l = F l)
    (hs : q.step D = some (q', D')) :
    Stores R W F q' ∧ (∀ l, D' l = D l ∨ (W l ∧ D' l = F l)) ∧ q'.run D' = q.run D := by
  cases q with
  | done => cases hs
  | look m k =>
    cases hs
    refine ⟨?_, fun _ => Or.inl rfl, rfl⟩
    rw [hr m h.1.1 h.1.2]
    exact h.2
  | put m v k =>
    cases hs
    refine ⟨h.2, fun l => ?_, rfl⟩
    unfold upd
    by_cases e : l = m
    · right
      rw [if_pos e, e]
      exact h.1
    · left; exact if_neg e

end

variable {N T K S L V : Type} [DecidableEq N] [DecidableEq T] [DecidableEq K] [DecidableEq S] [DecidableEq L]
  {g : DGraph N T K} {c : SysConf T} {es : List (ClEv N T S)} {x y : Cluster N T K S}
  {R W : N → L → Prop} {P : N → Prog L V} {D₀ D : L → V} {order : List N} {cur : S → Prog L V}
  {may : Cluster N T K S → S → Prop}

/-- The execution without the data. -/
theorem ClDataRun.run (h : ClDataRun g c P D₀ may es x D cur) : ClRun g c es x := by
  induction h with
  | init h => exact .init h
  | event e _ hl hs _ _ ih => exact .step e ih hl hs
  | work _ _ _ _ ih => exact ih

/-- What block `n` should store is there. -/
def Final (F : L → V) (W : N → L → Prop) (D : L → V) (n : N) : Prop := ∀ l, W n l → D l = F l

section
variable (hg : g.Loose) (hd : Disciplined g R W P) (ho : Topological g order)
  (hfirst : ∀ a ∈ g.nodes, ∀ b ∈ g.nodes, ∀ l, W a l → R b l → a ≠ b → Anc g a b)
  (hst : ∀ n ∈ g.nodes, Straight (R n) (W n) (P n))

include hg hd ho hfirst

/-- What a block looks at is there when it is its turn. -/
theorem looks_final {pre post : List N} {n : N} (e : order = pre ++ n :: post) {l : L} (hl : R n l) (hw : ¬ W n l) :
    oneByOne P pre D₀ l = oneByOne P order D₀ l := by
  have hn : n ∈ g.nodes := ho.mem_split e (by simp)
  by_cases h : ∃ a ∈ g.nodes, W a l
  · obtain ⟨a, ha, hal⟩ := h
    have hne : a ≠ n := fun e => hw (e ▸ hal)
    exact (oneByOne_earlier hd ho e (ho.before hg (hfirst a ha n hn l hal hl hne) hn e) hal).symm
  · have h' : ∀ a ∈ g.nodes, ¬ W a l := fun a ha hal => h ⟨a, ha, hal⟩
    rw [oneByOne_frame (R := R) (W := W) (fun m hm => hd.uses m (ho.mem_split e (by simp [hm])))
        (fun m hm => h' m (ho.mem_split e (by simp [hm]))) D₀,
      oneByOne_frame (R := R) (W := W) (fun m hm => hd.uses m ((ho.mem m).1 hm))
        (fun m hm => h' m ((ho.mem m).1 hm)) D₀]

include hst

theorem straight_final {n : N} (hn : n ∈ g.nodes) : Stores (R n) (W n) (oneByOne P order D₀) (P n) := by
  obtain ⟨pre, post, e⟩ := List.append_of_mem ((ho.mem n).2 hn)
  refine (hst n hn (oneByOne P pre D₀)).congr ?_
  intro l hl
  by_cases hw : W n l
  · exact (oneByOne_at hd ho e hw).symm
  · rw [Prog.run_frame (hd.uses n hn) _ hw]
    exact looks_final hg hd ho hfirst e (hl.resolve_right hw) hw

/-- A block that starts when the blocks before it are done finds everything as it should be. -/
theorem straight_start {n : N} (hn : n ∈ g.nodes) (hr : ∀ l, R n l → ¬ W n l → D l = oneByOne P order D₀ l)
    (htwo : ∀ l, W n l → D l = D₀ l ∨ D l = oneByOne P order D₀ l) :
    ∀ l, W n l → (P n).run D l = oneByOne P order D₀ l := by
  obtain ⟨pre, post, e⟩ := List.append_of_mem ((ho.mem n).2 hn)
  intro l hl
  refine (straight_final hg hd ho hfirst hst hn).stays (D := oneByOne P pre D₀)
    (fun m hm hw => ⟨looks_final hg hd ho hfirst e hm hw, hr m hm hw⟩) (fun m hm => ?_) l hl (oneByOne_at hd ho e hl).symm
  rw [oneByOne_later hd ho e (by simp) hm]
  exact htwo m hm

end

omit [DecidableEq T] [DecidableEq K] [DecidableEq L] in
/-- Everything a block looks at is there when all blocks before it are done. -/
theorem reads_final (hd : Disciplined g R W P) [DecidableEq L] (ho : Topological g order)
    (hfirst : ∀ a ∈ g.nodes, ∀ b ∈ g.nodes, ∀ l, W a l → R b l → a ≠ b → Anc g a b)
    (hoff : ∀ l, (∀ n ∈ g.nodes, ¬ W n l) → D l = D₀ l) {n : N} (hn : n ∈ g.nodes)
    (hanc : ∀ a ∈ g.nodes, Anc g a n → Final (oneByOne P order D₀) W D a) :
    ∀ l, R n l → ¬ W n l → D l = oneByOne P order D₀ l := by
  intro l hl hw
  by_cases h : ∃ a ∈ g.nodes, W a l
  · obtain ⟨a, ha, hal⟩ := h
    exact hanc a ha (hfirst a ha n hn l hal hl (fun e => hw (e ▸ hal))) l hal
  · have h' : ∀ a ∈ g.nodes, ¬ W a l := fun a ha hal => h ⟨a, ha, hal⟩
    rw [hoff l h', oneByOne_frame (R := R) (W := W) (fun m hm => hd.uses m ((ho.mem m).1 hm))
        (fun m hm => h' m ((ho.mem m).1 hm)) D₀]

/-- What is known about the data. -/
structure CalmInv (g : DGraph N T K) (R W : N → L → Prop) (D₀ F : L → V) (x : Cluster N T K S) (D : L → V)
    (cur : S → Prog L V) : Prop where
  off : ∀ l, (∀ n ∈ g.nodes, ¬ W n l) → D l = D₀ l
  two : ∀ l, D l = D₀ l ∨ D l = F l
  done : ∀ n ∈ g.nodes, Done (evs x.sys.srv.out) n → Final F W D n
  work : ∀ s n, workOf x s = some n → Stores (R n) (W n) F (cur s) ∧ ∀ l, W n l → (cur s).run D l = F l
  msg : MsgInv (fun _ n B => (∀ b, B b → EndsWell b) → Final F W D n) (fun _ n => Final F W D n) x

theorem workOf_iff {s : S} {n : N} : workOf x s = some n ↔ WorksOn x s n := by
  unfold workOf WorksOn
  rcases hx : x.conn s with _ | k
  · simp
  · cases hp : k.phase <;> simp [hp]

/-- A process that has a block was given it after the blocks before it were done. -/
theorem has_done (hg : g.Loose) (h : ClRun g c es x) {s : S} {k : Conn N T} (hk : x.conn s = some k) {n : N}
    (hn : Has k n) : n ∈ g.nodes ∧ ∀ a, Anc g a n → Done (evs x.sys.srv.out) a := by
  have h1 := ((ClRun.hist hg h).conn s k hk).2 n hn
  obtain ⟨ks, h2⟩ := ClRun.srun hg h
  have hl := (loose_legal hg (h2.inv hg).run)
  have hh : Ev.hand n ∈ evs x.sys.srv.out := List.mem_filterMap.2 ⟨_, h1, rfl⟩
  refine ⟨?_, fun a ha => hand_before hl ha hh⟩
  obtain ⟨pre, post, e⟩ := List.append_of_mem hh
  exact (hl pre (.hand n) post e).1

/-- A process starts to work when it reads the message with its block. -/
theorem starts_has (hg : g.Loose) (hi : ClInv g c x) {e : ClEv N T S} (hl : LegalCl c x e) (hs : x.step g c e = .ok y)
    {s : S} {n : N} (h1 : workOf x s = none) (h2 : workOf y s = some n) :
    ∃ k body, x.conn s = some k ∧ Has k n ∧ k.phase = .waiting ∧ e = .client s body := by
  obtain ⟨k', hk', hp'⟩ := workOf_iff.1 h2
  rcases hx : x.conn s with _ | k
  · obtain ⟨t, w, rfl⟩ := connect_of_none hs hx hk'
    cases hs
    simp only [upd, if_true] at hk'
    cases hk'
    cases hp'
  · obtain ⟨k1, e1, e2⟩ := eff_of_step hg hi hl hs hx
    rw [hk'] at e1
    cases e1
    have hnw : ∀ m, k.phase ≠ .working m := by
      intro m hm
      have := workOf_iff.2 ⟨k, hx, hm⟩
      rw [h1] at this
      cases this
    cases e2 with
    | client body a1 a2 =>
      have hh : Has k n := has_step (Or.inr (Or.inl hp'))
      refine ⟨k, body, rfl, hh, ?_, rfl⟩
      cases hph : k.phase with
      | waiting => rfl
      | working m => exact absurd hph (hnw m)
      | idle =>
        simp only [Conn.step, hph] at hp'
        split at hp' <;> cases hp'
      | leaving =>
        simp only [Conn.step, hph] at hp'
        split at hp'
        · rw [hph] at hp'; cases hp'
        · cases hp'
      | failing b p =>
        simp only [Conn.step, hph, Conn.exits] at hp'
        split at hp' <;> cases hp'
      | ended e => exact absurd (by rw [hph]; trivial) a2
      | killed => exact absurd (by rw [hph]; trivial) a2
    | kill a1 => cases hp'
    | breaks v a1 => exact absurd hp' (hnw n)
    | down v r a0 a1 => exact absurd hp' (hnw n)
    | up m m' r a0 a1 a2 => exact absurd hp' (hnw n)
    | bye r a0 a1 => exact absurd hp' (hnw n)
    | loop l os a1 a2 a3 =>
      split at hp'
      · exact absurd hp' (hnw n)
      · exact absurd hp' (hnw n)
    | other e q a1 a2 a3 a4 => exact absurd hp' (hnw n)

/-- A process that works on a block goes on with it, or stops. -/
theorem works_on (hg : g.Loose) (hi : ClInv g c x) {e : ClEv N T S} (hl : LegalCl c x e) (hs : x.step g c e = .ok y)
    {s : S} {m n : N} (h1 : workOf x s = some m) (h2 : workOf y s = some n) : m = n ∧ ∀ body, e ≠ .client s body := by
  obtain ⟨k, hx, hp⟩ := workOf_iff.1 h1
  obtain ⟨k', hk', hp'⟩ := workOf_iff.1 h2
  obtain ⟨k1, e1, e2⟩ := eff_of_step hg hi hl hs hx
  rw [hk'] at e1
  cases e1
  have key : k.phase = .working n → m = n := fun h => by rw [hp] at h; cases h; rfl
  cases e2 with
  | client body a1 a2 =>
    exfalso
    simp only [Conn.step, hp] at hp'
    split at hp'
    · unfold Conn.exits at hp'; split at hp' <;> cases hp'
    · split at hp'
      · split at hp' <;> cases hp'
      · unfold Conn.exits at hp'; split at hp' <;> cases hp'
  | kill a1 => cases hp'
  | breaks v a1 => exact ⟨key hp', fun _ h => (by cases h)⟩
  | down v r a0 a1 => exact ⟨key hp', fun _ h => (by cases h)⟩
  | up m m' r a0 a1 a2 => exact ⟨key hp', fun _ h => (by cases h)⟩
  | bye r a0 a1 => exact ⟨key hp', fun _ h => (by cases h)⟩
  | loop l os a1 a2 a3 =>
    refine ⟨key ?_, fun _ h => (by cases h)⟩
    split at hp'
    · exact hp'
    · exact hp'
  | other e q a1 a2 a3 a4 b1 => exact ⟨key hp', b1⟩

/-- The log gets longer. -/
theorem step_evs (hg : g.Loose) (hi : ClInv g c x) {e : ClEv N T S} (hl : LegalCl c x e) (hs : x.step g c e = .ok y) :
    y.sys.srv.out = x.sys.srv.out ++ y.sys.srv.out.drop x.sys.srv.out.length := by
  rcases step_out hl hs with ⟨l, rfl, hz⟩ | e1
  · obtain ⟨es', hrun⟩ := hi.run
    obtain ⟨ks, hsrun⟩ := hrun.srun
    obtain ⟨_, _, os, _, _, ho, _⟩ := iteration_effect hg (hsrun.inv hg) (goodTick_of hrun ⟨hl.1, hl.2.1⟩) (loop_iteration hz)
    rw [ho, List.drop_left]
  · rw [e1]; simp

omit [DecidableEq S] in
theorem evs_at (out : List (Out N T S)) : ∀ n, (.good n ∈ evs out → .release n .success ∈ out) ∧
    (.skip n ∈ evs out → .skip n ∈ out) := by
  intro n
  constructor <;>
  · intro h
    obtain ⟨o, h1, h2⟩ := List.mem_filterMap.1 h
    cases o with
    | release m st => cases st <;> cases h2 <;> exact h1
    | skip m => cases h2; try exact h1
    | send s m => cases h2
    | _ => cases h2

omit [DecidableEq S] in
/-- Blocks that complete leave the right data behind if those that are released do. -/
theorem done_final (hg : g.Loose) (hd : Disciplined g R W P) (ho : Topological g order)
    (hfirst : ∀ a ∈ g.nodes, ∀ b ∈ g.nodes, ∀ l, W a l → R b l → a ≠ b → Anc g a b)
    (hst : ∀ n ∈ g.nodes, Straight (R n) (W n) (P n))
    (hoff : ∀ l, (∀ n ∈ g.nodes, ¬ W n l) → D l = D₀ l)
    (htwo : ∀ l, D l = D₀ l ∨ D l = oneByOne P order D₀ l) : ∀ (new tr : List (Ev N)), Legal g (tr ++ new) →
    (∀ n ∈ g.nodes, Done tr n → Final (oneByOne P order D₀) W D n) →
    (∀ n, .good n ∈ new → Final (oneByOne P order D₀) W D n) → (∀ n, .skip n ∈ new → Present (P n) D) →
    ∀ n ∈ g.nodes, Done (tr ++ new) n → Final (oneByOne P order D₀) W D n := by
  intro new
  induction new with
  | nil => intro tr _ h _ _; simpa using h
  | cons e new ih =>
    intro tr hl h hgood hskip
    have e1 : tr ++ e :: new = (tr ++ [e]) ++ new := by simp
    rw [e1] at hl ⊢
    refine ih (tr ++ [e]) hl ?_ (fun n hn => hgood n (by simp [hn])) (fun n hn => hskip n (by simp [hn]))
    intro n hn hdn
    by_cases hold : Done tr n
    · exact h n hn hold
    have hnew : e = .good n ∨ e = .skip n := by
      unfold Done at hdn hold
      simp only [List.mem_append, List.mem_singleton] at hdn
      rcases hdn with (h1 | h1) | (h1 | h1)
      · exact absurd (Or.inl h1) hold
      · exact Or.inl h1.symm
      · exact absurd (Or.inr h1) hold
      · exact Or.inr h1.symm
    rcases hnew with rfl | rfl
    · exact hgood n (by simp)
    · have hr : Ready g tr n := hl tr (.skip n) new (by simp)
      have hl' : Legal g tr := fun p e q hx => hl p e (q ++ .skip n :: new) (by rw [hx]; simp)
      intro l hw
      rw [← hskip n (by simp) l]
      refine straight_start hg hd ho hfirst hst hn (reads_final hd ho hfirst hoff hn (fun a ha hanc =>
        h a ha (legal_anc_done hl' hr.2.1 hanc))) (fun l _ => htwo l) l hw

theorem ClDataRun.calm (hg : g.Loose) (hd : Disciplined g R W P) (ho : Topological g order)
    (hfirst : ∀ a ∈ g.nodes, ∀ b ∈ g.nodes, ∀ l, W a l → R b l → a ≠ b → Anc g a b)
    (hst : ∀ n ∈ g.nodes, Straight (R n) (W n) (P n)) (h : ClDataRun g c P D₀ may es x D cur) :
    CalmInv g R W D₀ (oneByOne P order D₀) x D cur := by
  induction h with
  | init h =>
    unfold Cluster.init at h
    split at h
    · cases h
    · next y hy =>
      cases h
      have hsrv : y.srv = Server.init g ∧ y.queue = [] := by
        unfold Sys.init at hy
        dsimp only at hy
        split at hy
        · cases hy
        · cases hy; exact ⟨rfl, rfl⟩
      have hevs : evs y.srv.out = [] := by
        rw [hsrv.1]
        exact (recruit_frame _).evs
      refine ⟨fun _ _ => rfl, fun _ => Or.inl rfl, fun n _ hn => ?_, fun s n hn => (by cases hn),
        ⟨fun s k hk => (by cases hk), fun n s hm => ?_⟩⟩
      · dsimp only at hn
        rw [hevs] at hn
        rcases hn with hn | hn <;> cases hn
      · dsimp only at hm; rw [hsrv.2] at hm; cases hm
  | @event es x y D cur e hrun hl hs hsk hwell ih =>
    have hcl := ClDataRun.run hrun
    have hi := ClRun.inv hg hcl
    have hmsg : MsgInv (fun _ n B => (∀ b, B b → EndsWell b) → Final (oneByOne P order D₀) W D n)
        (fun _ n => Final (oneByOne P order D₀) W D n) y := by
      refine ih.msg.step hg hi hl hs (fun s body n he hw Q hQ hall => ?_) (fun s n _ h => h (fun b hb => hb))
      have hd' := hwell s body n he hw (hall body hQ)
      intro l hl'
      have := (ih.work s n (workOf_iff.2 hw)).2 l hl'
      rw [hd'] at this
      exact this
    have hcl' : ClRun g c (es ++ [e]) y := .step e hcl hl hs
    obtain ⟨ks, hsr⟩ := ClRun.srun hg hcl'
    have hlegal := (loose_legal hg (hsr.inv hg).run)
    have hev : evs y.sys.srv.out = evs x.sys.srv.out ++ evs (y.sys.srv.out.drop x.sys.srv.out.length) := by
      conv_lhs => rw [step_evs hg hi hl hs]
      exact List.filterMap_append
    refine ⟨ih.off, ih.two, ?_, ?_, hmsg⟩
    · rw [hev] at hlegal ⊢
      refine done_final hg hd ho hfirst hst ih.off ih.two _ _ hlegal ih.done (fun n hn => ?_) (fun n hn =>
        hsk n ((evs_at _ n).2 hn))
      have h1 : .release n .success ∈ y.sys.srv.out := by
        rw [step_evs hg hi hl hs]
        exact List.mem_append_right _ ((evs_at _ n).1 hn)
      rcases ih.msg.completed hg hi hl hs h1 with h2 | ⟨s, -, h2⟩
      · have hnn : n ∈ g.nodes := by
          have h3 : Ev.good n ∈ evs y.sys.srv.out := List.mem_filterMap.2 ⟨_, h1, rfl⟩
          rw [hev] at h3
          obtain ⟨pre, post, e1⟩ := List.append_of_mem h3
          have hh : Held pre n := hlegal pre (.good n) post e1
          unfold Held at hh
          obtain ⟨p1, p2, rfl⟩ := List.append_of_mem (List.count_pos_iff.1 (show 0 < pre.count (.hand n) by omega))
          exact (hlegal p1 (.hand n) (p2 ++ .good n :: post) (by rw [e1]; simp)).1
        exact ih.done n hnn (Or.inl (List.mem_filterMap.2 ⟨_, h2, rfl⟩))
      · exact h2
    · intro s n hn
      rcases hwx : workOf x s with _ | m
      · obtain ⟨k, body, hk, hh, -, -⟩ := starts_has hg hi hl hs hwx hn
        obtain ⟨hnn, hanc⟩ := has_done hg hcl hk hh
        have e1 : begun P x y cur s = P n := by
          unfold begun
          rw [hn, hwx]
          exact if_pos rfl
        rw [e1]
        exact ⟨straight_final hg hd ho hfirst hst hnn, straight_start hg hd ho hfirst hst hnn
          (reads_final hd ho hfirst ih.off hnn (fun a ha hanc' => ih.done a ha (hanc a hanc'))) (fun l _ => ih.two l)⟩
      · obtain ⟨rfl, -⟩ := works_on hg hi hl hs hwx hn
        have e1 : begun P x y cur s = cur s := by
          unfold begun
          rw [hn, hwx]
          exact if_neg (by simp)
        rw [e1]
        exact ih.work s m hwx
  | @work es x D D' cur s n q hrun hmay hw hq ih =>
    have hcl := ClDataRun.run hrun
    have hreads : ∀ s n, workOf x s = some n → n ∈ g.nodes ∧ ∀ l, R n l → ¬ W n l → D l = oneByOne P order D₀ l := by
      intro s n hsn
      obtain ⟨k, hk, hp⟩ := workOf_iff.1 hsn
      obtain ⟨hnn, hanc⟩ := has_done hg hcl hk (n := n) (Or.inr (Or.inl hp))
      exact ⟨hnn, reads_final hd ho hfirst ih.off hnn (fun a ha hanc' => ih.done a ha (hanc a hanc'))⟩
    have hsn := workOf_iff.2 hw
    obtain ⟨hnn, hr⟩ := hreads s n hsn
    obtain ⟨q1, q2, q3⟩ := (ih.work s n hsn).1.step hr hq
    have hfin : ∀ m, Final (oneByOne P order D₀) W D m → Final (oneByOne P order D₀) W D' m := by
      intro m hm l hl
      rcases q2 l with h1 | h1
      · rw [h1]; exact hm l hl
      · exact h1.2
    refine ⟨fun l hl => ?_, fun l => ?_, fun m hm hdn => hfin m (ih.done m hm hdn), fun s' m hm => ?_,
      ih.msg.mono (fun _ m Q hq hall => hfin m (hq hall)) (fun _ m => hfin m)⟩
    · rcases q2 l with h1 | h1
      · rw [h1]; exact ih.off l hl
      · exact absurd h1.1 (hl n hnn)
    · rcases q2 l with h1 | h1
      · rw [h1]; exact ih.two l
      · exact Or.inr h1.2
    · by_cases e : s' = s
      · subst e
        rw [hsn] at hm
        cases hm
        have e1 : upd cur s' q s' = q := if_pos rfl
        rw [e1, q3]
        exact ⟨q1, (ih.work s' n hsn).2⟩
      · have e1 : upd cur s q s' = cur s' := if_neg e
        rw [e1]
        obtain ⟨w1, w2⟩ := ih.work s' m hm
        obtain ⟨_, hr'⟩ := hreads s' m hm
        refine ⟨w1, fun l hl => w1.stays (D := D) (fun a ha hwa => ⟨hr' a ha hwa, ?_⟩) (fun a _ => ?_) l hl (w2 l hl)⟩
        · rcases q2 a with h1 | h1
          · rw [h1]; exact hr' a ha hwa
          · exact h1.2
        · exact (q2 a).imp id And.right

end Verif
