import Verif.Proofs.ClusterStuck
import Verif.Props.ClusterFair

/-! # C87: a plain pipeline of three stages whose workers never fail can hang -/

namespace Verif

open Spec Pipeline Props

namespace Ex

/-- Client `s` asks for a block, the server reads the request. -/
def asks (s : Fin 3) : List (SimpleCl (Block 1) Nat (Fin 3)) := [.client s, .up s, .loop]

/-- Client `s` processes the block it was sent and gives it back. -/
def works (s : Fin 3) : List (SimpleCl (Block 1) Nat (Fin 3)) := [.client s, .client s, .up s, .loop]

/-- Client `k` is the worker of stage `k`.  In the end the client of stage 2 says goodbye. -/
def hangCl : List (SimpleCl (Block 1) Nat (Fin 3)) :=
  [.connect 0 0, .connect 1 1, .connect 2 2] ++ asks 2 ++ [.down 2] ++ works 2 ++ asks 1 ++ [.down 1] ++ asks 2 ++
  [.down 2] ++ works 1 ++ asks 0 ++ [.down 0] ++ asks 1 ++ works 0 ++ asks 0 ++ works 2 ++ asks 2 ++
  [.down 2, .client 2, .up 2, .down 2, .client 2]

/-- Events that are needed are to come. -/
def hangChk (x : Cluster (Block 1) Nat (Nat × Int) (Fin 3)) (as : List (SimpleCl (Block 1) Nat (Fin 3))) : Bool :=
  (List.finRange 3).all fun s => match x.conn s with
  | none => true
  | some k => (k.tcp.outbox.isEmpty || as.any (fun a => match a with | .up s' => s' == s | _ => false)) &&
    (k.down.isEmpty || as.any (fun a => match a with | .down s' => s' == s | _ => false)) &&
    (s != 2 || as.any (fun a => match a with | .client s' => s' == s | _ => false))

/-- What happens in the end, again and again: the clients of the first stages look for an answer, and the server
looks for messages. -/
noncomputable def hangTail (i : Nat) : ClEv (Block 1) Nat (Fin 3) :=
  if i % 3 = 0 then .client 0 ⟨.enum .processing, none⟩
  else if i % 3 = 1 then .client 1 ⟨.enum .processing, none⟩
  else .sys (.loop { envOf (anyPick (stageBlk 0 0)) with late := true })

/-- The execution so far. -/
noncomputable def hangRun : Option (Cluster (Block 1) Nat (Nat × Int) (Fin 3)) :=
  match Cluster.init stageView stageSys with
  | .error _ => none
  | .ok x => clPathChk stageView stageSys (anyPick (stageBlk 0 0)) hangChk hangCl x

/-- A client that waits for an answer. -/
def hangConn (k : Option (Conn (Block 1) Nat)) (ph : Phase (Block 1)) : Bool :=
  match k with
  | none => false
  | some k => decide (k.phase = ph) && k.tcp.outbox.isEmpty && k.down.isEmpty &&
    decide (k.step ⟨.enum .processing, none⟩ = k)

/-- The state in which nothing happens any more. -/
noncomputable def hangEnd (y : Cluster (Block 1) Nat (Nat × Int) (Fin 3)) : Bool :=
  decide (y.sys.queue = [] ∧ y.sys.errs = 0 ∧ y.sys.closed = []) &&
  decide (y.sys.srv.stop = false ∧ (∀ n ∈ stageView.nodes, holder y.sys.srv.out n = none) ∧ y.sys.srv.pending 0 ≠ [] ∧
    (∀ e ∈ evs y.sys.srv.out, e ≠ .bad e.node) ∧
    (∀ n ∈ stageView.nodes, stageView.task n = 0 → ¬ Ready stageView (evs y.sys.srv.out) n) ∧
    ¬ Done (evs y.sys.srv.out) (stageBlk 0 1) ∧ stageBlk 0 1 ∈ stageView.nodes ∧
    (∀ n ∈ stageView.nodes, stageView.task n < 3)) &&
  (hangConn (y.conn 0) .waiting && hangConn (y.conn 1) .waiting && hangConn (y.conn 2) (.ended none))

/-- No failure of a client. -/
def noFault : SimpleCl (Block 1) Nat (Fin 3) → Bool
  | .kill _ => false
  | .close _ => false
  | .fail _ => false
  | .interrupt _ => false
  | .breaks _ => false
  | _ => true

end Ex

open Ex

/-- The state keeps its properties. -/
structure HangInv (y z : Cluster (Block 1) Nat (Nat × Int) (Fin 3)) : Prop where
  conn : z.conn = y.conn
  queue : z.sys.queue = []
  errs : z.sys.errs = 0
  closed : z.sys.closed = []
  stop : z.sys.srv.stop = false
  steps : ∃ ks, (∀ k ∈ ks, k.recv = .nothing) ∧ SSteps stageView stageConf y.sys.srv ks z.sys.srv
  run : ∃ es, ClRun stageView stageSys es z ∧ ∀ e, .sys e ∈ es → NoReports e

theorem hang_step {y z : Cluster (Block 1) Nat (Nat × Int) (Fin 3)} (hy : hangEnd y = true)
    (hr : ∃ es, ClRun stageView stageSys es y) (hz : HangInv y z) (i : Nat) :
    ∃ z', LegalCl stageSys z (hangTail i) ∧ z.step stageView stageSys (hangTail i) = .ok z' ∧ HangInv y z' := by
  have hok : stageView.OK := stage_builds.ok stage_plain
  simp only [hangEnd, Bool.and_eq_true, decide_eq_true_eq] at hy
  obtain ⟨⟨⟨e1, e2, e3⟩, e4, e5, e6, e7, e8, e9, e10, e11⟩, ⟨e12, e13⟩, e14⟩ := hy
  have hwait : ∀ s, hangConn (y.conn s) .waiting = true → ∃ z',
      LegalCl stageSys z (.client s ⟨.enum .processing, none⟩) ∧
      z.step stageView stageSys (.client s ⟨.enum .processing, none⟩) = .ok z' ∧ HangInv y z' := by
    intro s hs
    cases hk : y.conn s with
    | none => rw [hk] at hs; cases hs
    | some k =>
      rw [hk] at hs
      simp only [hangConn, Bool.and_eq_true, decide_eq_true_eq] at hs
      have hl : LegalCl stageSys z (.client s ⟨.enum .processing, none⟩) :=
        ⟨k, by rw [hz.conn, hk], by rw [hs.1.1.1]; exact id⟩
      obtain ⟨es, hrun, hnr⟩ := hz.run
      refine ⟨_, hl, rfl, ⟨?_, hz.queue, hz.errs, hz.closed, hz.stop, hz.steps, _, .step _ hrun hl rfl, ?_⟩⟩
      · funext s'
        simp only [Cluster.modify, upd]
        rw [hz.conn]
        split
        · next h =>
          subst h
          rw [hk, Option.map_some, hs.2]
        · rfl
      · intro e he
        rcases List.mem_append.1 he with he | he
        · exact hnr e he
        · cases List.mem_singleton.1 he
  unfold hangTail
  split
  · exact hwait 0 e12
  · split
    · exact hwait 1 e13
    · set l : LoopEnv (Block 1) Nat (Fin 3) := { envOf (anyPick (stageBlk 0 0)) with late := true } with hlenv
      have hl : LegalCl stageSys z (.sys (.loop l)) :=
        ⟨hz.stop, ⟨anyPick_legal _, fun _ => anyPick_legal _⟩, fun s hs => by cases hs⟩
      obtain ⟨es, hrun, hnr⟩ := hz.run
      have hserved : ∀ n ∈ stageView.nodes, stageView.task n ∈ stageSys.cfg.served := by
        intro n hn
        have := e11 n hn
        have h3 : ∀ t, t < 3 → t ∈ [0, 1, 2] := by decide
        exact h3 _ this
      have hNR : NoReports (SysEv.loop l) := by
        intro p hp
        cases hp
      obtain ⟨z', hz'⟩ := C83_never_raises hok (by decide) hserved hrun hnr hl (fun e' he => by cases he; exact hNR)
      refine ⟨z', hl, hz', ?_⟩
      obtain ⟨ks0, hr0⟩ := ClRun.srun hok hr.choose_spec
      obtain ⟨ks, h1, h2⟩ := hz.steps
      have hrecv : z.sys.recv = (.nothing, [], 0) := by
        simp [Sys.recv, hz.errs, hz.queue]
      have hct : z.sys.closedThen l = [] := by
        simp [Sys.closedThen, hz.closed, hlenv, envOf]
      have hz'0 := hz'
      simp only [Cluster.step, Sys.step, Sys.loop] at hz'
      cases hi : z.sys.srv.iteration stageView stageSys.cfg (z.sys.tickOf l) with
      | error e => rw [hi] at hz'; cases hz'
      | ok srv =>
        rw [hi] at hz'
        have hst : SSteps stageView stageConf y.sys.srv (ks ++ [z.sys.tickOf l]) srv :=
          SSteps.step _ h2 hz.stop ⟨(fun m s hc => by
            have : z.sys.recv.1 = .msg m s := hc
            rw [hrecv] at this
            cases this), anyPick_legal _, fun _ => anyPick_legal _⟩ hi
        have hks : ∀ k ∈ ks ++ [z.sys.tickOf l], k.recv = .nothing := by
          intro k hk
          rcases List.mem_append.1 hk with hk | hk
          · exact h1 k hk
          · rw [List.mem_singleton.1 hk]
            exact congrArg Prod.fst hrecv
        have hnb : ∀ n, Ev.bad n ∉ evs y.sys.srv.out := fun n hn => e7 _ hn rfl
        have hnd : ∀ n, ¬ Dead stageView (evs y.sys.srv.out) n := fun n hd => hnb n hd.1
        have hx : OrphanExact stageView (evs y.sys.srv.out) := exact_of_one (fun n _ f f' hd _ _ _ => absurd hd (hnd f))
        have e5' : ∀ n, holder y.sys.srv.out n = none := by
          intro n
          by_contra hc
          exact hc (e5 n ((hr0.inv hok).toSCore.mem hok hc))
        have hstuck : ∀ {ks' σ'}, (∀ k ∈ ks', k.recv = .nothing) → SSteps stageView stageConf y.sys.srv ks' σ' →
            σ'.stop = false ∧ ∀ x s, answers stageView x s σ'.out = answers stageView x s y.sys.srv.out := by
          intro ks' σ' h1 h2
          have h3 := C55_stuck hok hr0 hx e5' e4 (pre := []) (t := 0) rfl (by simp) e6
            (fun n hn hrd => e8 n hrd.1 hn hrd) e10 rfl e9 (hnd _) (fun ⟨f, hf, _⟩ => hnd f hf) h1 h2
          exact ⟨h3.2.1, h3.2.2.1⟩
        have h3 := hstuck h1 h2
        have h4 := hstuck hks hst
        have hgood : GoodTick stageView stageSys.cfg (z.sys.tickOf l) := ⟨(fun m s hc => by
            have : z.sys.recv.1 = .msg m s := hc
            rw [hrecv] at this
            cases this), anyPick_legal _, fun _ => anyPick_legal _⟩
        obtain ⟨_, _, os, _, _, ho, _⟩ := iteration_effect hok ((hr0.steps h2).inv hok) hgood hi
        have hrun' := ClRun.step _ hrun hl hz'0
        split at hz'
        · cases hz'
        next w hw =>
        cases hz'
        dsimp only at hw
        split at hw
        · cases hw
        · split at hw
          · cases hw
          · cases hw
            refine ⟨?_, congrArg (fun r => r.2.1) hrecv, ?_, hct, h4.1, ⟨_, hks, hst⟩, _, hrun', ?_⟩
            · funext s
              have h6 := downOf_nil (g := stageView) (out := z.sys.srv.out) (os := os)
                (fun t s => by rw [← ho, h4.2, h3.2]) s
              simp only [Cluster.deliver, hz.closed, ho, List.drop_left, h6, List.append_nil, List.not_mem_nil, if_false]
              rw [hz.conn]
              exact Option.map_id' ..
            · simp only [hrecv, hct, hz.closed, List.length_nil]
            · intro e he
              rcases List.mem_append.1 he with he | he
              · exact hnr e he
              · cases List.mem_singleton.1 he
                exact hNR

/-- C87 is false: `run_blockwise` of a plain pipeline with three stages and one worker each can hang, although no
process and no connection ever fails, all processes go on, all messages arrive and all process functions do their
work. -/
theorem C87_false : ∃ (tasks r : List (Task 1)) (p : Pipeline 1) (c : SysConf Nat)
    (x : Nat → Cluster (Block 1) Nat (Nat × Int) (Fin 3)) (e : Nat → ClEv (Block 1) Nat (Fin 3)),
    PlainTasks tasks ∧ Builds tasks r p ∧ c.cfg.served = r.map TTree.id ∧ ClForever p.view c x e ∧
    ClLive p.view x e ∧ AllReliable x e ∧ WorksWell x e ∧ ∀ i, (x i).sys.srv.stop = false := by
  have hok : stageView.OK := stage_builds.ok stage_plain
  have htest : hangRun.map hangEnd = some true := by decide +kernel
  have hthree : ∀ s : Fin 3, s = 0 ∨ s = 1 ∨ s = 2 := by decide
  have hlen : hangCl.length = 49 := rfl
  have hall : hangCl.all noFault = true := by decide
  unfold hangRun at htest
  split at htest
  · cases htest
  next x0 hx0 =>
  rcases hy : clPathChk stageView stageSys (anyPick (stageBlk 0 0)) hangChk hangCl x0 with _ | y
  · rw [hy] at htest; cases htest
  rw [hy] at htest
  have hend : hangEnd y = true := by simpa using htest
  obtain ⟨X, hX0, hXP, hX⟩ := clPathChk_states (anyPick_legal _) _ _ _ hy
  have hsome : ∀ i, i < 49 → ∃ a, hangCl[i]? = some a ∧ a ∈ hangCl := fun i hi =>
    ⟨hangCl[i]'(by omega), List.getElem?_eq_getElem (by omega), List.getElem_mem _⟩
  have hrunP : ∃ es, ClRun stageView stageSys es y ∧ ∀ e ∈ es, ∃ a ∈ hangCl, e = a.ev (anyPick (stageBlk 0 0)) := by
    have h1 := clRun_of_states (g := stageView) (c := stageSys) (X := X)
      (E := fun i => match hangCl[i]? with | some a => a.ev (anyPick (stageBlk 0 0)) | none => .kill 0) (P := 49)
      (by rw [hX0]; exact hx0) (fun i hi => by
        obtain ⟨a, ha, _⟩ := hsome i hi
        obtain ⟨_, h2, h3, _⟩ := hX i a ha
        simp only [ha]
        exact ⟨h2, h3⟩)
    obtain ⟨es, h1, h2⟩ := h1
    rw [show X 49 = y from hXP] at h1
    refine ⟨es, h1, fun e he => ?_⟩
    obtain ⟨i, hi, e1⟩ := h2 e he
    obtain ⟨a, ha, hm⟩ := hsome i hi
    simp only [ha] at e1
    exact ⟨a, hm, e1⟩
  obtain ⟨esP, hrun, hesP⟩ := hrunP
  have hend' := hend
  simp only [hangEnd, Bool.and_eq_true, decide_eq_true_eq] at hend'
  obtain ⟨⟨⟨e1, e2, e3⟩, e4, e5, e6, e7, e8, e9, e10, e11⟩, ⟨e12, e13⟩, e14⟩ := hend'
  have hz0 : HangInv y y := by
    refine ⟨rfl, e1, e2, e3, e4, ⟨[], by simp, SSteps.nil⟩, esP, hrun, ?_⟩
    intro e he
    obtain ⟨a, _, h2⟩ := hesP _ he
    cases a <;> cases h2
    · trivial
    · intro p hp; cases hp
  choose F hF1 hF2 hF3 using fun (z : {z // HangInv y z}) (i : Nat) => hang_step hend ⟨_, hrun⟩ z.2 i
  let Z : Nat → {z // HangInv y z} := fun n => Nat.rec ⟨y, hz0⟩ (fun i z => ⟨F z i, hF3 z i⟩) n
  have hZ : ∀ i, LegalCl stageSys (Z i).1 (hangTail i) ∧
      (Z i).1.step stageView stageSys (hangTail i) = .ok (Z (i + 1)).1 := fun i => ⟨hF1 _ _, hF2 _ _⟩
  let x : Nat → Cluster (Block 1) Nat (Nat × Int) (Fin 3) := fun i => if i < 49 then X i else (Z (i - 49)).1
  let E : Nat → ClEv (Block 1) Nat (Fin 3) := fun i => match hangCl[i]? with
    | some a => a.ev (anyPick (stageBlk 0 0))
    | none => hangTail (i - 49)
  have hxl : ∀ i, i < 49 → x i = X i := fun i hi => if_pos hi
  have hxr : ∀ d, x (49 + d) = (Z d).1 := fun d => by
    show (if 49 + d < 49 then _ else _) = _
    rw [if_neg (by omega), Nat.add_sub_cancel_left]
  have hxl' : ∀ i, i ≤ 49 → x i = X i := fun i hi => by
    by_cases h : i < 49
    · exact hxl i h
    · obtain rfl : i = 49 := by omega
      exact (hxr 0).trans hXP.symm
  have hEl : ∀ i a, hangCl[i]? = some a → E i = a.ev (anyPick (stageBlk 0 0)) := by
    intro i a ha
    show (match hangCl[i]? with | some a => _ | none => _) = _
    rw [ha]
  have hEr : ∀ d, E (49 + d) = hangTail d := by
    intro d
    have : hangCl[49 + d]? = none := List.getElem?_eq_none (by omega)
    show (match hangCl[49 + d]? with | some a => _ | none => _) = _
    rw [this, Nat.add_sub_cancel_left]
  have hcase : ∀ i, i < 49 ∨ ∃ d, i = 49 + d := fun i => by
    by_cases h : i < 49
    · exact Or.inl h
    · exact Or.inr ⟨i - 49, by omega⟩
  have hns : ∀ i, (x i).sys.srv.stop = false := by
    intro i
    rcases hcase i with h | ⟨d, rfl⟩
    · obtain ⟨a, ha, _⟩ := hsome i h
      rw [hxl i h]
      exact (hX i a ha).1
    · rw [hxr]
      exact (Z d).2.stop
  have hev : ∀ i, (∃ s t, E i = .connect s t 0) ∨ (∃ s, E i = .client s ⟨.enum .processing, none⟩) ∨
      (∃ s, E i = .up s) ∨ (∃ s, E i = .down s) ∨ ∃ l, E i = .sys (.loop l) ∧ l.closing = [] := by
    intro i
    rcases hcase i with h | ⟨d, rfl⟩
    · obtain ⟨a, ha, hm⟩ := hsome i h
      have h6 := List.all_eq_true.mp hall a hm
      rw [hEl i a ha]
      cases a with
      | kill _ => cases h6
      | close _ => cases h6
      | fail _ => cases h6
      | interrupt _ => cases h6
      | breaks _ => cases h6
      | connect s t => exact Or.inl ⟨s, t, rfl⟩
      | client s => exact Or.inr (Or.inl ⟨s, rfl⟩)
      | up s => exact Or.inr (Or.inr (Or.inl ⟨s, rfl⟩))
      | down s => exact Or.inr (Or.inr (Or.inr (Or.inl ⟨s, rfl⟩)))
      | loop => exact Or.inr (Or.inr (Or.inr (Or.inr ⟨_, rfl, rfl⟩)))
    · rw [hEr]
      unfold hangTail
      split
      · exact Or.inr (Or.inl ⟨_, rfl⟩)
      · split
        · exact Or.inr (Or.inl ⟨_, rfl⟩)
        · exact Or.inr (Or.inr (Or.inr (Or.inr ⟨_, rfl, rfl⟩)))
  have hrel : ∀ s, Reliable x E s := by
    intro s i _ hF
    rcases hev i with ⟨_, _, h⟩ | ⟨_, h⟩ | ⟨_, h⟩ | ⟨_, h⟩ | ⟨l, h, h'⟩ <;> rw [h] at hF
    · exact hF
    · obtain ⟨_, _, e, h5, _⟩ := hF
      cases h5
    · exact hF
    · exact hF
    · have hF : s ∈ l.closing := hF
      rw [h'] at hF
      cases hF
  have hloop : ∀ i, ∃ d, i ≤ 49 + d ∧ E (49 + d) = .sys (.loop { envOf (anyPick (stageBlk 0 0)) with late := true }) := by
    intro i
    refine ⟨3 * i + 2, by omega, ?_⟩
    rw [hEr]
    unfold hangTail
    rw [if_neg (by omega), if_neg (by omega)]
  have hchk : ∀ i, i < 49 → hangChk (x i) (hangCl.drop i) = true := by
    intro i hi
    obtain ⟨a, ha, _⟩ := hsome i hi
    rw [hxl i hi]
    exact (hX i a ha).2.2.2
  have hcome : ∀ i (q : SimpleCl (Block 1) Nat (Fin 3) → Bool), (hangCl.drop i).any q = true →
      ∃ j a, i ≤ j ∧ q a = true ∧ E j = a.ev (anyPick (stageBlk 0 0)) := by
    intro i q h
    obtain ⟨a, ha, hq⟩ := List.any_eq_true.1 h
    obtain ⟨m, hm⟩ := List.mem_iff_getElem?.1 ha
    rw [List.getElem?_drop] at hm
    exact ⟨i + m, a, by omega, hq, hEl _ _ hm⟩
  have hconnE : ∀ s k d, (x (49 + d)).conn s = some k → k.tcp.outbox = [] ∧ k.down = [] ∧
      ((s = 0 ∨ s = 1) ∨ Phase.Over k.phase) := by
    intro s k d hk
    rw [hxr, (Z d).2.conn] at hk
    have key : ∀ ph, hangConn (y.conn s) ph = true → k.tcp.outbox = [] ∧ k.down = [] ∧ k.phase = ph := by
      intro ph h
      rw [hk] at h
      simp only [hangConn, Bool.and_eq_true, decide_eq_true_eq, List.isEmpty_iff] at h
      exact ⟨h.1.1.2, h.1.2, h.1.1.1⟩
    have hs := hthree s
    rcases hs with rfl | rfl | rfl
    · obtain ⟨h1, h2, _⟩ := key _ e12
      exact ⟨h1, h2, Or.inl (Or.inl rfl)⟩
    · obtain ⟨h1, h2, _⟩ := key _ e13
      exact ⟨h1, h2, Or.inl (Or.inr rfl)⟩
    · obtain ⟨h1, h2, h3⟩ := key _ e14
      exact ⟨h1, h2, Or.inr (by rw [h3]; trivial)⟩
  have hchk' : ∀ i s k, i < 49 → (x i).conn s = some k →
      (k.tcp.outbox ≠ [] → ∃ j, i ≤ j ∧ E j = .up s) ∧ (k.down ≠ [] → ∃ j, i ≤ j ∧ E j = .down s) ∧
      (s = 2 → ∃ j, i ≤ j ∧ ∃ body, E j = .client s body) := by
    intro i s k hi hk
    have h1 := List.all_eq_true.1 (hchk i hi) s (List.mem_finRange s)
    simp only [hk, Bool.and_eq_true, Bool.or_eq_true, List.isEmpty_iff, bne_iff_ne] at h1
    obtain ⟨⟨h1, h2⟩, h3⟩ := h1
    refine ⟨fun h => ?_, fun h => ?_, fun h => ?_⟩
    · obtain ⟨j, a, g1, g2, g3⟩ := hcome i _ (h1.resolve_left h)
      refine ⟨j, g1, ?_⟩
      rw [g3]
      cases a with
      | up s' => rw [eq_of_beq g2]; rfl
      | _ => cases g2
    · obtain ⟨j, a, g1, g2, g3⟩ := hcome i _ (h2.resolve_left h)
      refine ⟨j, g1, ?_⟩
      rw [g3]
      cases a with
      | down s' => rw [eq_of_beq g2]; rfl
      | _ => cases g2
    · obtain ⟨j, a, g1, g2, g3⟩ := hcome i _ (h3.resolve_left (not_not.2 h))
      refine ⟨j, g1, ?_⟩
      rw [g3]
      cases a with
      | client s' => rw [eq_of_beq g2]; exact ⟨_, rfl⟩
      | _ => cases g2
  have hF : ClForever stageView stageSys x E := by
    refine ⟨?_, fun i hi => ?_, fun i _ => ?_, fun i _ => ?_⟩
    · rw [hxl 0 (by omega), hX0]; exact hx0
    · rw [hns] at hi; cases hi
    · rcases hcase i with h | ⟨d, rfl⟩
      · obtain ⟨a, ha, _⟩ := hsome i h
        rw [hxl i h, hEl i a ha]
        exact (hX i a ha).2.1
      · rw [hxr, hEr]
        exact (hZ d).1
    · rcases hcase i with h | ⟨d, rfl⟩
      · obtain ⟨a, ha, _⟩ := hsome i h
        rw [hxl i h, hEl i a ha, hxl' (i + 1) (by omega)]
        exact (hX i a ha).2.2.1
      · rw [hxr, hEr, Nat.add_assoc, hxr]
        exact (hZ d).2
  have hL : ClLive stageView x E := by
    refine ⟨?_, ?_, ?_, ?_, ?_, ?_⟩
    · intro i s k hk ho
      have h01 : s = 0 ∨ s = 1 → ∃ j, i ≤ j ∧ ∃ body, E j = .client s body := by
        rintro (rfl | rfl)
        · refine ⟨49 + 3 * i, by omega, ⟨.enum .processing, none⟩, ?_⟩
          rw [hEr, hangTail, if_pos (by omega)]
        · refine ⟨49 + (3 * i + 1), by omega, ⟨.enum .processing, none⟩, ?_⟩
          rw [hEr, hangTail, if_neg (by omega), if_pos (by omega)]
      have h02 : ∃ j, i ≤ j ∧ ∃ body, E j = .client s body := by
        rcases hcase i with h | ⟨d, rfl⟩
        · rcases hthree s with hs | hs | hs
          · exact h01 (Or.inl hs)
          · exact h01 (Or.inr hs)
          · exact (hchk' i s k h hk).2.2 hs
        · exact h01 ((hconnE s k d hk).2.2.resolve_right ho)
      obtain ⟨j, h1, h2⟩ := h02
      exact ⟨j, h1, Or.inr (Or.inr (Or.inl h2))⟩
    · intro i s k hk _ ho
      rcases hcase i with h | ⟨d, rfl⟩
      · obtain ⟨j, h1, h2⟩ := (hchk' i s k h hk).1 ho
        exact ⟨j, h1, Or.inr (Or.inr h2)⟩
      · exact absurd (hconnE s k d hk).1 ho
    · intro i s k hk ho
      rcases hcase i with h | ⟨d, rfl⟩
      · obtain ⟨j, h1, h2⟩ := (hchk' i s k h hk).2.1 ho
        exact ⟨j, h1, Or.inr (Or.inr (Or.inr h2))⟩
      · exact absurd (hconnE s k d hk).2.1 ho
    · intro i
      obtain ⟨d, h1, h2⟩ := hloop i
      refine ⟨49 + d, h1, Or.inr ⟨_, h2, ?_⟩⟩
      rw [hxr]
      simp [Sys.recv, (Z d).2.errs, (Z d).2.queue]
    · intro i
      obtain ⟨d, h1, h2⟩ := hloop i
      exact ⟨49 + d, h1, Or.inr ⟨_, h2, rfl⟩⟩
    · intro i t _
      by_cases ht : t < 3
      · have : t = 0 ∨ t = 1 ∨ t = 2 := by omega
        rcases this with rfl | rfl | rfl
        · exact ⟨0, Or.inr (Or.inr ⟨0, 0, rfl, hrel _⟩)⟩
        · exact ⟨1, Or.inr (Or.inr ⟨1, 0, rfl, hrel _⟩)⟩
        · exact ⟨2, Or.inr (Or.inr ⟨2, 0, rfl, hrel _⟩)⟩
      · exact ⟨0, Or.inr (Or.inl (fun n hn hnt => absurd (hnt ▸ e11 n hn) ht))⟩
  refine ⟨[stage0], _, _, stageSys, x, E, stage_plain, stage_builds, rfl, hF, hL, fun _ s _ _ _ _ => hrel s, ?_, hns⟩
  intro i s n body _ hE _
  rcases hev i with ⟨_, _, h⟩ | ⟨_, h⟩ | ⟨_, h⟩ | ⟨_, h⟩ | ⟨_, h, _⟩ <;> rw [h] at hE <;> cases hE
  exact Or.inl ⟨rfl, Or.inl rfl⟩

end Verif
