import Verif.Props.PlainFailures
import Verif.Proofs.OrderPipeline
import Verif.Proofs.OrderServer
import Verif.Proofs.OrderSerial

/-! # C122: the order in which sets are iterated over

The lists of dependencies come from sets, and `mark_failure` pops blocks from a set.  The order of the elements of these
sets depends on the hash seed of the process.  What the scheduler and the server do does not depend on what is popped; and
it does not depend on the lists as long as these keep the order of blocks of which one depends on the other.  They do if
no task requires another task both directly and through a third one.  If one does, then whether `run_blockwise` returns
can depend on the hash seed. -/

namespace Verif.Props

open Spec Pipeline Verif.Order Verif.Ex Verif.Ex.Fail

section General
variable {N T K S : Type} [DecidableEq N] [DecidableEq T] [DecidableEq K] [DecidableEq S] {g g' : DGraph N T K}

/-- What `mark_failure` pops first does not matter: the scheduler is the same afterwards, and so are the orphans. -/
theorem C122_pop (hg : g.OK) {tr : List (Ev N)} {st : Sched N T K} (hr : Run g tr st) {n : N} (hn : Held tr n)
    {pick pick' : Nat → Finset N → N} (hp : LegalPick pick) (hp' : LegalPick pick') :
    st.releaseBlock g pick n .failed = st.releaseBlock g pick' n .failed ∧
      st.orphansOf g pick n .failed = st.orphansOf g pick' n .failed := by
  have hnn := (hr.inv hg).inv.choose_spec.hNode n hn
  obtain ⟨a, ha, _⟩ := (hr.inv hg).release_bad hg hn hp
  obtain ⟨b, hb, _⟩ := (hr.inv hg).release_bad hg hn hp'
  refine ⟨?_, orphansOf_reordered (reordered_refl g) hg hnn hb ha⟩
  rw [ha, hb, release_failed_reordered (reordered_refl g) hg hnn ha hb]

/-- A whole run of the server is the same whatever is popped. -/
theorem C122_pop_server {cfg : SConf T} {ks ks' : List (Server.Tick N T S)} {σ : Server N T K S} (hg : g.OK)
    (hr : SRun g cfg ks σ) (hks : List.Forall₂ SamePops ks ks')
    (hl : ∀ k ∈ ks', GoodTick g cfg k) : SRun g cfg ks' σ :=
  srun_reordered (reordered_refl g) hg hr hks hl

/-- Lists of dependencies in another order, which keep the order of blocks of which one depends on the other and, in lists
of downstream blocks, of blocks of the same task: the scheduler does exactly the same.  The full claim has no such
condition, see `C122_false`. -/
theorem C122_order_partial [Nonempty N] (hg : g.OK) (h : Reordered g g') (tr : List (Ev N)) (st : Sched N T K) :
    Run g tr st ↔ Run g' tr st := by
  obtain ⟨pick, hp⟩ : ∃ pick : Nat → Finset N → N, LegalPick pick := by
    classical
    refine ⟨fun _ s => if h : s.Nonempty then h.choose else Classical.arbitrary N, fun i s hs => ?_⟩
    dsimp only
    rw [dif_pos hs]
    exact hs.choose_spec
  exact ⟨run_reordered h hg hp, run_reordered (reordered_symm h hg) (h.toShuffled.ok hg) hp⟩

/-- And so does the server. -/
theorem C122_server_partial {cfg : SConf T} {ks ks' : List (Server.Tick N T S)} {σ : Server N T K S} (hg : g.OK)
    (h : Reordered g g') (hr : SRun g cfg ks σ) (hks : List.Forall₂ SamePops ks ks')
    (hl : ∀ k ∈ ks', GoodTick g cfg k) : SRun g' cfg ks' σ :=
  srun_reordered h hg hr hks hl

/-- Without multiprocessing as well: every pass of the serial server has the same result, be it an exception. -/
theorem C122_serial_partial {served : List T} {ks ks' : List (SerTick N T)} {σ : Serial N T K} (hg : g.OK)
    (h : Reordered g g') (hr : SerRun g served ks σ) (hks : List.Forall₂ SamePop ks ks')
    (hl : ∀ k ∈ ks', LegalPick k.pick) : SerRun g' served ks' σ ∧ ∀ k k', SamePop k k' → LegalPick k.pick →
      LegalPick k'.pick → σ.pass g' served k' = σ.pass g served k :=
  ⟨serRun_reordered h hg hr hks hl, fun _ _ hk hp hp' => pass_reordered h hg (hr.inv hg) hp hp' hk⟩

end General

section Pipelines
variable {d : Nat} {tasks r : List (Task d)} {p : Pipeline d} {g' : DGraph (Block d) Nat (Nat × Int)}

/-- Whatever the hash seed is, the graph is the same up to the order of lists, and it has what all theorems about general
graphs ask for. -/
theorem C122_ok (h : PlainTasks tasks) (hb : Builds tasks r p) (ho : OtherSeed p g') : Shuffled p.view g' ∧ g'.OK := by
  have := shuffled_of_seed (built_of_init hb.init (hb.unique h)).1 (hb.wf h) (fun b hx => hb.of_nodes h hx) ho
  exact ⟨this, this.ok (hb.ok h)⟩

theorem reordered_plain (h : PlainTasks tasks) (hb : Builds tasks r p) (hs : NoShortcut tasks) (ho : OtherSeed p g') :
    Reordered p.view g' := by
  have hbt := built_of_init hb.init (hb.unique h)
  refine reordered_of_seed hbt.1 (hb.wf h) (fun b hx => hb.of_nodes h hx) (hb.ok h) ?_ ho
  intro x y z hxy hyz hxz
  have hz := (hbt.1.inv.mem y z hyz).2
  rw [hbt.2, C54_all_recorded r (hb.unique h)] at hz
  obtain ⟨t, ht, rfl⟩ := hz
  rw [hbt.2, C54_upstream r (hb.unique h) ht] at hyz hxz
  obtain ⟨u, hu, rfl⟩ := hyz
  obtain ⟨w, hw, hwx⟩ := hxz
  have htt := (flatten_required h.unique hb.flat t).1 ht
  have hur := (flatten_required h.unique hb.flat u).2 (hb.link h htt hu).1
  rw [hbt.2, C54_upstream r (hb.unique h) hur] at hxy
  obtain ⟨v, hv, rfl⟩ := hxy
  exact hs t htt u hu v hv w hw hwx

/-- In a plain pipeline in which no task requires another task both directly and through a third one, the scheduler has
the same runs whatever the hash seed is. -/
theorem C122_pipeline (h : PlainTasks tasks) (hb : Builds tasks r p) (hs : NoShortcut tasks) (ho : OtherSeed p g')
    (tr : List (Ev (Block d))) (st : Sched (Block d) Nat (Nat × Int)) : Run p.view tr st ↔ Run g' tr st := by
  have : Nonempty (Block d) := ⟨Block.new ⟨Vec.ofFn 0, Vec.ofFn 0⟩ ⟨Vec.ofFn 0, Vec.ofFn 0⟩ ⟨Vec.ofFn 0, Vec.ofFn 0⟩ 0⟩
  exact C122_order_partial (hb.ok h) (reordered_plain h hb hs ho) tr st

/-- The server as well: if the same messages arrive, everything it does is the same. -/
theorem C122_pipeline_server {S : Type} [DecidableEq S] {cfg : SConf Nat} {ks ks' : List (Server.Tick (Block d) Nat S)}
    {σ : Server (Block d) Nat (Nat × Int) S} (h : PlainTasks tasks) (hb : Builds tasks r p) (hs : NoShortcut tasks)
    (ho : OtherSeed p g') (hr : SRun p.view cfg ks σ) (hks : List.Forall₂ SamePops ks ks')
    (hl : ∀ k ∈ ks', GoodTick p.view cfg k) : SRun g' cfg ks' σ :=
  srun_reordered (reordered_plain h hb hs ho) (hb.ok h) hr hks hl

/-- And the serial server. -/
theorem C122_pipeline_serial {served : List Nat} {ks ks' : List (SerTick (Block d) Nat)}
    {σ : Serial (Block d) Nat (Nat × Int)} (h : PlainTasks tasks) (hb : Builds tasks r p) (hs : NoShortcut tasks)
    (ho : OtherSeed p g') (hr : SerRun p.view served ks σ) (hks : List.Forall₂ SamePop ks ks')
    (hl : ∀ k ∈ ks', LegalPick k.pick) : SerRun g' served ks' σ ∧ ∀ k k', SamePop k k' → LegalPick k.pick →
      LegalPick k'.pick → σ.pass g' served k' = σ.pass p.view served k :=
  C122_serial_partial (hb.ok h) (reordered_plain h hb hs ho) hr hks hl

/-- A single task requires nothing. -/
theorem C122_single {t : Task d} (ht : t.requires = []) (h : PlainTasks [t]) (hb : Builds [t] r p) (ho : OtherSeed p g')
    (tr : List (Ev (Block d))) (st : Sched (Block d) Nat (Nat × Int)) : Run p.view tr st ↔ Run g' tr st := by
  refine C122_pipeline h hb ?_ ho tr st
  rintro s ⟨t', ht', hs⟩ u hu
  obtain rfl := List.mem_singleton.1 ht'
  rcases Relation.ReflTransGen.cases_head hs with rfl | ⟨v, hv, _⟩
  · rw [ht] at hu; cases hu
  · have hv : v ∈ t'.requires := hv
    rw [ht] at hv; cases hv

end Pipelines

/-! ### Where the order does matter -/

namespace Ex122

/-- Five tasks with one block each; the fourth one requires the second one directly and through the third one. -/
def z : Task 1 := line 0 1 []
def a : Task 1 := line 1 1 []
def b : Task 1 := line 2 1 [a]
def c : Task 1 := line 3 1 [a, b]
def e : Task 1 := line 4 1 [z, a, c]

theorem z_chk : plainChk z :=
  ⟨⟨⟨by decide, by decide, by decide, by decide, Or.inl (by decide), by decide⟩, fun h => absurd rfl h⟩,
    fun h => absurd rfl h⟩

theorem a_chk : plainChk a :=
  ⟨⟨⟨by decide, by decide, by decide, by decide, Or.inl (by decide), by decide⟩, fun h => absurd rfl h⟩,
    fun h => absurd rfl h⟩

theorem b_chk : plainChk b :=
  ⟨⟨⟨by decide, by decide, by decide, by decide, Or.inl (by decide), by decide⟩,
    fun _ => by unfold TaskInfo.Symmetric; decide⟩,
    fun _ => ⟨a, List.mem_singleton.2 rfl, within_of (by decide), Or.inr (by unfold TaskInfo.Divides; decide)⟩⟩

theorem c_chk : plainChk c :=
  ⟨⟨⟨by decide, by decide, by decide, by decide, Or.inl (by decide), by decide⟩,
    fun _ => by unfold TaskInfo.Symmetric; decide⟩,
    fun _ => ⟨a, List.mem_cons_self, within_of (by decide), Or.inr (by unfold TaskInfo.Divides; decide)⟩⟩

theorem e_chk : plainChk e :=
  ⟨⟨⟨by decide, by decide, by decide, by decide, Or.inl (by decide), by decide⟩,
    fun _ => by unfold TaskInfo.Symmetric; decide⟩,
    fun _ => ⟨z, List.mem_cons_self, within_of (by decide), Or.inr (by unfold TaskInfo.Divides; decide)⟩⟩

/-- What `run_blockwise([e])` makes of it. -/
def seedPipe : Pipeline 1 := pipe [e, z, a, c, b]

/-- The same if the set of the two tasks that `c` requires is iterated over in the other order. -/
def otherPipe : Pipeline 1 :=
  { seedPipe with tg := { seedPipe.tg with ups := fun x => if x = 3 then (seedPipe.tg.ups 3).reverse else seedPipe.tg.ups x } }

theorem plain : PlainTasks [e] := by
  refine plain_of (L := [z, a, b, c, e]) (by simp)
    (by simp [z, a, b, c, e, line, task1, TTree.requires])
    (by simp [z, a, b, c, e, line, task1, TTree.id]) ?_
  intro t ht
  simp only [List.mem_cons, List.not_mem_nil, or_false] at ht
  rcases ht with rfl | rfl | rfl | rfl | rfl
  · exact z_chk
  · exact a_chk
  · exact b_chk
  · exact c_chk
  · exact e_chk

theorem builds : Builds [e] [e, z, a, c, b] seedPipe := ⟨by rfl, by rfl, by rfl⟩

theorem other : OtherSeed seedPipe otherPipe.view := by
  refine otherSeed_of_perm (built_of_init builds.init (builds.unique plain)).1 (builds.wf plain) rfl rfl rfl ?_
    (fun _ => List.Perm.refl _)
  intro y
  change (seedPipe.tg.ups y).Perm (if y = 3 then (seedPipe.tg.ups 3).reverse else seedPipe.tg.ups y)
  split
  · next h => rw [h]; exact (List.reverse_perm _).symm
  · exact List.Perm.refl _

def conf : SConf Nat := ⟨[4, 0, 1, 3, 2], fun _ => none⟩

/-- The blocks of `a` and `b` are done, the one of `c` fails, and then the one of `z`. -/
noncomputable def serve : List (Server.Tick (Block 1) Nat Nat) :=
  [TriMsg.ask 1 10, .ok (lineBlk 1 0) 10, .ask 2 11, .ok (lineBlk 2 0) 11, .ask 3 12, .bad (lineBlk 3 0) 12, .ask 0 13,
    .bad (lineBlk 0 0) 13].map (fun m => tick (pipePick seedPipe) m.recv)

theorem serve_legal : ∀ k ∈ serve, LegalPick k.pick ∧ ∀ n, LegalPick (k.pickLost n) := by
  intro k hk
  obtain ⟨r, _, he⟩ := List.mem_map.1 hk
  rw [← he]
  exact tick_legal (pipePick_legal _) _ _

end Ex122

open Ex122

/-- The claim is false for a plain pipeline of five tasks with one block each: two processes in which the same happens
outside the server, but sets are iterated over in another order.  In one of them the server stops; in the other one
nothing is left to do and nothing runs, but the server does not stop. -/
theorem C122_false : ∃ (p : Pipeline 1) (g' : DGraph (Block 1) Nat (Nat × Int)) (served : List Nat), PlainPipe p served ∧
    OtherSeed p g' ∧ ∃ (cfg : SConf Nat) (ks : List (Server.Tick (Block 1) Nat Nat))
      (σ σ' : Server (Block 1) Nat (Nat × Int) Nat), cfg.served = served ∧ SRun p.view cfg ks σ ∧ SRun g' cfg ks σ' ∧
      evs σ.out = evs σ'.out ∧ σ'.stop = true ∧ σ.stop = false ∧ σ.sched.getReadyTasks p.view = [] ∧
      (∀ n, ¬ Held (evs σ.out) n) ∧
      (σ.sched.states 4).orphaned = 2 ∧ (σ'.sched.states 4).orphaned = 1 := by
  have hx : (sexec (S := Nat) seedPipe.view conf serve).map (fun σ => (evs σ.out, decide (σ.stop = false ∧
      σ.sched.getReadyTasks seedPipe.view = [] ∧ (∀ x ∈ evs σ.out, ¬ Held (evs σ.out) x.node) ∧
      (σ.sched.states 4).orphaned = 2))) =
      some ([.hand (lineBlk 1 0), .good (lineBlk 1 0), .hand (lineBlk 2 0), .good (lineBlk 2 0), .hand (lineBlk 3 0),
        .bad (lineBlk 3 0), .hand (lineBlk 0 0), .bad (lineBlk 0 0)], true) := by
    decide +kernel
  have hy : (sexec (S := Nat) otherPipe.view conf serve).map (fun σ => (evs σ.out, decide (σ.stop = true ∧
      (σ.sched.states 4).orphaned = 1))) =
      some ([.hand (lineBlk 1 0), .good (lineBlk 1 0), .hand (lineBlk 2 0), .good (lineBlk 2 0), .hand (lineBlk 3 0),
        .bad (lineBlk 3 0), .hand (lineBlk 0 0), .bad (lineBlk 0 0)], true) := by
    decide +kernel
  obtain ⟨σ, h1, h2⟩ := sexec_run serve_legal _ hx
  obtain ⟨σ', h3, h4⟩ := sexec_run serve_legal _ hy
  obtain ⟨h21, h22⟩ := Prod.mk.inj h2
  obtain ⟨h41, h42⟩ := Prod.mk.inj h4
  obtain ⟨e1, e2, e3, e4⟩ := of_decide_eq_true h22
  obtain ⟨e5, e6⟩ := of_decide_eq_true h42
  refine ⟨seedPipe, otherPipe.view, [4, 0, 1, 3, 2], ⟨_, _, plain, builds, rfl⟩, other, conf, serve, σ, σ', rfl, h1, h3,
    h21.trans h41.symm, e5, e1, e2, ?_, e4, e6⟩
  exact not_held_of e3

namespace Ex122

/-- Six tasks of three blocks each. -/
def y' : Task 1 := line 5 3 []
def z' : Task 1 := line 0 3 [y']
def a' : Task 1 := line 1 3 []
def b' : Task 1 := line 2 3 [a']
def c' : Task 1 := line 3 3 [a', b']
def e' : Task 1 := line 4 3 [c', a', z']

theorem y'_chk : plainChk y' :=
  ⟨⟨⟨by decide, by decide, by decide, by decide, Or.inl (by decide), by decide⟩, fun h => absurd rfl h⟩,
    fun h => absurd rfl h⟩

theorem z'_chk : plainChk z' :=
  ⟨⟨⟨by decide, by decide, by decide, by decide, Or.inl (by decide), by decide⟩,
    fun _ => by unfold TaskInfo.Symmetric; decide⟩,
    fun _ => ⟨y', List.mem_singleton.2 rfl, within_of (by decide), Or.inr (by unfold TaskInfo.Divides; decide)⟩⟩

theorem a'_chk : plainChk a' :=
  ⟨⟨⟨by decide, by decide, by decide, by decide, Or.inl (by decide), by decide⟩, fun h => absurd rfl h⟩,
    fun h => absurd rfl h⟩

theorem b'_chk : plainChk b' :=
  ⟨⟨⟨by decide, by decide, by decide, by decide, Or.inl (by decide), by decide⟩,
    fun _ => by unfold TaskInfo.Symmetric; decide⟩,
    fun _ => ⟨a', List.mem_singleton.2 rfl, within_of (by decide), Or.inr (by unfold TaskInfo.Divides; decide)⟩⟩

theorem c'_chk : plainChk c' :=
  ⟨⟨⟨by decide, by decide, by decide, by decide, Or.inl (by decide), by decide⟩,
    fun _ => by unfold TaskInfo.Symmetric; decide⟩,
    fun _ => ⟨a', List.mem_cons_self, within_of (by decide), Or.inr (by unfold TaskInfo.Divides; decide)⟩⟩

theorem e'_chk : plainChk e' :=
  ⟨⟨⟨by decide, by decide, by decide, by decide, Or.inl (by decide), by decide⟩,
    fun _ => by unfold TaskInfo.Symmetric; decide⟩,
    fun _ => ⟨c', List.mem_cons_self, within_of (by decide), Or.inr (by unfold TaskInfo.Divides; decide)⟩⟩

/-- What `run_blockwise([e'], multiprocessing=False)` makes of it. -/
def seedPipe' : Pipeline 1 := pipe [e', c', a', z', b', y']

/-- The same if the set of the two tasks that `c'` requires is iterated over in the other order. -/
def otherPipe' : Pipeline 1 :=
  { seedPipe' with
    tg := { seedPipe'.tg with ups := fun x => if x = 3 then (seedPipe'.tg.ups 3).reverse else seedPipe'.tg.ups x } }

theorem plain' : PlainTasks [e'] := by
  refine plain_of (L := [y', z', a', b', c', e']) (by simp)
    (by simp [y', z', a', b', c', e', line, task1, TTree.requires])
    (by simp [y', z', a', b', c', e', line, task1, TTree.id]) ?_
  intro t ht
  simp only [List.mem_cons, List.not_mem_nil, or_false] at ht
  rcases ht with rfl | rfl | rfl | rfl | rfl | rfl
  · exact y'_chk
  · exact z'_chk
  · exact a'_chk
  · exact b'_chk
  · exact c'_chk
  · exact e'_chk

theorem builds' : Builds [e'] [e', c', a', z', b', y'] seedPipe' := ⟨by rfl, by rfl, by rfl⟩

theorem other' : OtherSeed seedPipe' otherPipe'.view := by
  refine otherSeed_of_perm (built_of_init builds'.init (builds'.unique plain')).1 (builds'.wf plain') rfl rfl rfl ?_
    (fun _ => List.Perm.refl _)
  intro y
  change (seedPipe'.tg.ups y).Perm (if y = 3 then (seedPipe'.tg.ups 3).reverse else seedPipe'.tg.ups y)
  split
  · next h => rw [h]; exact (List.reverse_perm _).symm
  · exact List.Perm.refl _

/-- The first block of `c'` and the first one of `z'` fail. -/
noncomputable def serveOne : SerTick (Block 1) Nat := serTick (pipePick seedPipe') [] [lineBlk 3 0, lineBlk 0 0]

end Ex122

/-- Without multiprocessing: the same process functions, which fail for two blocks, and sets in another order.  Both runs
end; in one of them a block that is ready was never processed, in the other one it was. -/
theorem C122_false_serial : ∃ (p : Pipeline 1) (g' : DGraph (Block 1) Nat (Nat × Int)) (served : List Nat),
    PlainPipe p served ∧ OtherSeed p g' ∧ ∃ (k : SerTick (Block 1) Nat) (i j : Nat)
      (σ σ' : Serial (Block 1) Nat (Nat × Int)) (n : Block 1), SerTick.Returns k ∧
      SerRun p.view served (List.replicate i k) σ ∧ SerRun g' served (List.replicate j k) σ' ∧ σ.ended = true ∧
      σ'.ended = true ∧ SerOut.call n ∈ σ'.out ∧ SerOut.call n ∉ σ.out ∧ Ready p.view (serEvs σ.out) n := by
  have hx : (serExec seedPipe'.view [4, 3, 1, 0, 2, 5] (List.replicate 16 serveOne)).map (fun σ => decide (σ.ended = true ∧
      SerOut.call (lineBlk 4 2) ∉ σ.out ∧ Ready seedPipe'.view (serEvs σ.out) (lineBlk 4 2))) = some true := by
    decide +kernel
  have hy : (serExec otherPipe'.view [4, 3, 1, 0, 2, 5] (List.replicate 17 serveOne)).map (fun σ => decide (σ.ended = true ∧
      SerOut.call (lineBlk 4 2) ∈ σ.out)) = some true := by
    decide +kernel
  have hlegal : ∀ i, ∀ k ∈ List.replicate i serveOne, LegalPick k.pick := by
    intro i k hk
    rw [List.eq_of_mem_replicate hk]
    exact serTick_legal (pipePick_legal _) _ _
  obtain ⟨σ, h1, h2⟩ := serExec_run (hlegal 16) _ hx
  obtain ⟨σ', h3, h4⟩ := serExec_run (hlegal 17) _ hy
  obtain ⟨e1, e2, e3⟩ := of_decide_eq_true h2
  obtain ⟨e4, e5⟩ := of_decide_eq_true h4
  exact ⟨seedPipe', otherPipe'.view, [4, 3, 1, 0, 2, 5], ⟨_, _, plain', builds', rfl⟩, other', serveOne, 16, 17, σ, σ',
    lineBlk 4 2, (serTick_returns _ _).1, h1, h3, e1, e4, e5, e2, e3⟩

/-- A block of the diamond is out (for `C122_pop`). -/
example : ∃ tr st, Run diaPipe.view tr st ∧ Held tr (lineBlk 0 0) := by
  have hx : (exec diaPipe.view (pipePick diaPipe) [.acq 0 []]).map (fun p => decide (Held p.1 (lineBlk 0 0))) =
      some true := by decide +kernel
  obtain ⟨tr, st, h, e⟩ := exec_map (pipePick_legal _) _ hx
  exact ⟨tr, st, h, of_decide_eq_true e⟩

/-- Non-trivial: two stages, the second one requires the first one only. -/
example : NoShortcut [two1] := by
  rintro t ⟨t', ht', hs⟩ u hu v hv
  obtain rfl := List.mem_singleton.1 ht'
  have h1 : t = two1 ∨ t = two0 := by
    rcases Relation.ReflTransGen.cases_head hs with rfl | ⟨x, hx, hs⟩
    · exact Or.inl rfl
    · have hx : x ∈ [two0] := hx
      obtain rfl := List.mem_singleton.1 hx
      rcases Relation.ReflTransGen.cases_head hs with rfl | ⟨y, hy, _⟩
      · exact Or.inr rfl
      · cases (hy : y ∈ [])
  rcases h1 with rfl | rfl
  · obtain rfl := List.mem_singleton.1 (hu : u ∈ [two0])
    cases (hv : v ∈ [])
  · cases (hu : u ∈ [])

/-- Four stages that form a diamond have no shortcut, and the tasks that the last one requires can be listed in two
orders. -/
example : NoShortcut [dia3] := by
  rintro t ⟨t', ht', hs⟩ u hu v hv w hw
  obtain rfl := List.mem_singleton.1 ht'
  have h0 : ∀ x : Task 1, Needs dia0 x → x = dia0 := fun x hx => by
    rcases Relation.ReflTransGen.cases_head hx with rfl | ⟨y, hy, _⟩
    · rfl
    · cases (hy : y ∈ [])
  have h1 : t = dia3 ∨ t = dia1 ∨ t = dia2 ∨ t = dia0 := by
    rcases Relation.ReflTransGen.cases_head hs with rfl | ⟨x, hx, hs⟩
    · exact Or.inl rfl
    · rcases List.mem_cons.1 (hx : x ∈ [dia1, dia2]) with rfl | hx
      · rcases Relation.ReflTransGen.cases_head hs with rfl | ⟨y, hy, hs⟩
        · exact Or.inr (Or.inl rfl)
        · obtain rfl := List.mem_singleton.1 (hy : y ∈ [dia0])
          exact Or.inr (Or.inr (Or.inr (h0 _ hs)))
      · obtain rfl := List.mem_singleton.1 hx
        rcases Relation.ReflTransGen.cases_head hs with rfl | ⟨y, hy, hs⟩
        · exact Or.inr (Or.inr (Or.inl rfl))
        · obtain rfl := List.mem_singleton.1 (hy : y ∈ [dia0])
          exact Or.inr (Or.inr (Or.inr (h0 _ hs)))
  rcases h1 with rfl | rfl | rfl | rfl
  · have h2 : v = dia0 := by
      rcases List.mem_cons.1 (hu : u ∈ [dia1, dia2]) with rfl | hu
      · exact List.mem_singleton.1 (hv : v ∈ [dia0])
      · obtain rfl := List.mem_singleton.1 hu
        exact List.mem_singleton.1 (hv : v ∈ [dia0])
    subst h2
    rcases List.mem_cons.1 (hw : w ∈ [dia1, dia2]) with rfl | hw
    · decide
    · obtain rfl := List.mem_singleton.1 hw
      decide
  · obtain rfl := List.mem_singleton.1 (hu : u ∈ [dia0])
    cases (hv : v ∈ [])
  · obtain rfl := List.mem_singleton.1 (hu : u ∈ [dia0])
    cases (hv : v ∈ [])
  · cases (hu : u ∈ [])

/-- In the diamond the other order does change the lists of dependencies. -/
example : ∃ g', OtherSeed diaPipe g' ∧ g'.up (wideBlk 3 1) ≠ diaPipe.view.up (wideBlk 3 1) := by
  obtain ⟨tasks, r, h, hb, -⟩ := dia_pipe
  refine ⟨({ diaPipe with tg := { diaPipe.tg with ups := fun x => (diaPipe.tg.ups x).reverse } } : Pipeline 1).view,
    otherSeed_of_perm (built_of_init hb.init (hb.unique h)).1 (hb.wf h) rfl rfl rfl
      (fun y => (List.reverse_perm _).symm) (fun _ => List.Perm.refl _), by decide +kernel⟩

end Verif.Props
