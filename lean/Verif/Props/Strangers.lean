import Verif.Proofs.Strangers
import Verif.Props.System

/-! # C116: what clients can do to the server -/

set_option linter.unusedSectionVars false

namespace Verif

open Spec

variable {N T K S : Type} [DecidableEq N] [DecidableEq T] [DecidableEq K] [DecidableEq S]
  {g : DGraph N T K} {cfg : SConf T} {ks : List (Server.Tick N T S)} {x x' : OpenServer N T K S}

theorem SInv.of_strip {σ : Server N T K S} (h : SInv g (strip g σ)) : SInv g σ := by
  refine ⟨⟨?_, ?_⟩, h.nodup, h.entry, ?_⟩
  · rw [← evs_strip (g := g)]; exact h.run
  · intro n
    rw [← evs_strip (g := g), ← holder_strip (g := g)]
    exact h.held n
  · intro n hn
    rw [← holder_strip (g := g)]
    exact h.book n hn

theorem Spec.OpenRun.inv (hg : g.Loose) (hserved : ∀ n ∈ g.nodes, g.task n ∈ cfg.served) (h : OpenRun g cfg ks x) :
    SInv g (strip g x.srv) ∧ (∀ t ∈ x.extra, t ∉ g.tasks) ∧ ToldOnce g x.extra x.srv := by
  induction h with
  | init =>
    have h0 : strip g (Server.init g : Server N T K S) = Server.init g := by
      unfold Server.init
      rw [strip_recruit]
      rfl
    refine ⟨?_, (by intro t ht; cases ht), ?_⟩
    · change SInv g (strip g (Server.init g))
      rw [h0]
      exact SInv.init
    · exact announced_recruit (by
        intro t _
        constructor
        · rfl
        · exact Iff.rfl)
  | step k h hs hk he ih =>
    obtain ⟨i1, i2, i3⟩ := ih
    rename_i y _
    have h1 := strip_iteration (cfg := cfg) i2 k
    rw [he] at h1
    obtain ⟨h2, h3⟩ := iteration_any (cfg := cfg) hg hserved i1 hk
    refine ⟨?_, iteration_fresh i2 he, announced_iteration i2 i3 he⟩
    by_cases hf : Fatal (strip g y.srv).out k.recv
    · obtain ⟨e, h4, _⟩ := h2 hf
      rw [h4] at h1
      cases h1
    · obtain ⟨σ', h4, h5, _⟩ := h3 hf
      rw [h4] at h1
      cases h1
      exact h5

theorem fatal_strip {σ : Server N T K S} {r : Server.Recv N T S} : Fatal (strip g σ).out r ↔ Fatal σ.out r := by
  rcases r with ⟨m, s⟩ | _ | _
  · cases m with
    | release n status =>
      unfold Fatal
      simp only
      rw [show (strip g σ).out = σ.out.filter (ofPipeline g) from rfl, holder_strip]
    | _ => exact Iff.rfl
  · exact Iff.rfl
  · exact Iff.rfl

/-- Whatever `x.iteration` does, the server without the announcements does. -/
theorem iteration_of_strip {x : OpenServer N T K S} (he : ∀ t ∈ x.extra, t ∉ g.tasks) {k : Server.Tick N T S} :
    (∀ e, (strip g x.srv).iteration g cfg k = .error e → x.iteration g cfg k = .error e) ∧
    (∀ σ, (strip g x.srv).iteration g cfg k = .ok σ → ∃ y, x.iteration g cfg k = .ok y ∧ strip g y.srv = σ) := by
  have h1 := strip_iteration (cfg := cfg) he k
  constructor
  · intro e h
    rw [h] at h1
    rcases hx : x.iteration g cfg k with e' | y
    · rw [hx] at h1; cases h1; rfl
    · rw [hx] at h1; cases h1
  · intro σ h
    rw [h] at h1
    rcases hx : x.iteration g cfg k with e' | y
    · rw [hx] at h1; cases h1
    · rw [hx] at h1
      cases h1
      exact ⟨y, rfl, rfl⟩

/-- **C116, full statement.**  Whatever clients send, the server does not raise. -/
def C116_statement : Prop :=
  ∀ (N T K S : Type) [DecidableEq N] [DecidableEq T] [DecidableEq K] [DecidableEq S] (g : DGraph N T K) (cfg : SConf T),
    g.OK → (∀ n ∈ g.nodes, g.task n ∈ cfg.served) →
    ∀ (ks : List (Server.Tick N T S)) (x : OpenServer N T K S) (k : Server.Tick N T S),
      OpenRun g cfg ks x → AnyTick g k → ∃ x', x.iteration g cfg k = .ok x'

/-- C116: exactly the messages listed in `Fatal` make the server raise: whatever was sent before, and by whom. -/
theorem C116_raises_iff (hg : g.Loose) (hserved : ∀ n ∈ g.nodes, g.task n ∈ cfg.served) (h : OpenRun g cfg ks x)
    {k : Server.Tick N T S} (hk : AnyTick g k) :
    (∃ e, x.iteration g cfg k = .error e) ↔ Fatal x.srv.out k.recv := by
  obtain ⟨i1, i2, _⟩ := h.inv hg hserved
  obtain ⟨h1, h2⟩ := iteration_any (cfg := cfg) hg hserved i1 hk
  obtain ⟨s1, s2⟩ := iteration_of_strip (cfg := cfg) (k := k) i2
  constructor
  · rintro ⟨e, he⟩
    by_contra hf
    obtain ⟨σ', h3, _⟩ := h2 (fun hc => hf (fatal_strip.1 hc))
    obtain ⟨y, h4, _⟩ := s2 _ h3
    rw [h4] at he
    cases he
  · intro hf
    obtain ⟨e, h3, _⟩ := h1 (fatal_strip.2 hf)
    exact ⟨e, s1 e h3⟩

/-- C116: what is raised. -/
theorem C116_which (hg : g.Loose) (hserved : ∀ n ∈ g.nodes, g.task n ∈ cfg.served) (h : OpenRun g cfg ks x)
    {k : Server.Tick N T S} (hk : AnyTick g k) {e : PyErr} (he : x.iteration g cfg k = .error e) :
    (∃ s, k.recv = .msg .clientException s ∧ e = .userException) ∨
    (∃ s, k.recv = .msg .other s ∧ e = .unexpectedMessage) ∨
    (∃ n status s, k.recv = .msg (.release n status) s ∧ e = .runtimeError) := by
  have hf := (C116_raises_iff hg hserved h hk).1 ⟨e, he⟩
  obtain ⟨i1, i2, _⟩ := h.inv hg hserved
  obtain ⟨h1, _⟩ := iteration_any (cfg := cfg) hg hserved i1 hk
  obtain ⟨e', h3, h4, h5, h6⟩ := h1 (fatal_strip.2 hf)
  have h7 := (iteration_of_strip (cfg := cfg) (k := k) i2).1 e' h3
  rw [he] at h7
  cases h7
  rcases hr : k.recv with ⟨m, s⟩ | _ | _
  · rw [hr] at hf h4 h5 h6
    cases m with
    | clientException => exact Or.inl ⟨s, rfl, h4 ⟨s, rfl⟩⟩
    | other => exact Or.inr (Or.inl ⟨s, rfl, h5 ⟨s, rfl⟩⟩)
    | release n status => exact Or.inr (Or.inr ⟨n, status, s, rfl, h6 ⟨n, status, s, rfl⟩⟩)
    | acquire t => exact absurd hf id
    | blockFailed n w => exact absurd hf id
  · rw [hr] at hf; exact absurd hf id
  · rw [hr] at hf; exact absurd hf id

/-- C116: whatever clients send, the scheduler is only ever used as it is meant to be (so that C15 to C27 apply), and the
server knows who has which block. -/
theorem C116_order (hg : g.Loose) (hserved : ∀ n ∈ g.nodes, g.task n ∈ cfg.served) (h : OpenRun g cfg ks x) :
    Run g (evs x.srv.out) x.srv.sched ∧ Legal g (evs x.srv.out) ∧
    (∀ n ∈ g.nodes, ∀ s, (∃ e ∈ x.srv.book, e.2.block = n ∧ e.2.stream = s) ↔ holder x.srv.out n = some s) := by
  have hi := (h.inv hg hserved).1.of_strip
  refine ⟨hi.run, loose_legal hg hi.run, ?_⟩
  intro n hn s
  rw [← hi.book n hn]
  constructor
  · rintro ⟨e, he, rfl, rfl⟩
    rw [← (hi.entry e he).2, Book.get_of_mem (k := e.1) (l := e.2) hi.nodup he]
    rfl
  · intro hb
    obtain ⟨l, h1, h2⟩ := Option.map_eq_some_iff.1 hb
    have h3 := Book.get_mem h1
    exact ⟨_, h3, (hg.key_inj _ (hi.entry _ h3).1 n hn (hi.entry _ h3).2.symm), h2⟩

/-- C116: no client can take a block away from another one: a block stays with the client that has it as long as this
client is connected and does not send anything. -/
theorem C116_others (hg : g.Loose) (hserved : ∀ n ∈ g.nodes, g.task n ∈ cfg.served) (h : OpenRun g cfg ks x)
    {k : Server.Tick N T S} (hk : AnyTick g k) (he : x.iteration g cfg k = .ok x') {n : N} {s : S}
    (hn : holder x.srv.out n = some s) (hs : ∀ m s', k.recv = .msg m s' → s ≠ s') (hc : k.closed s = false) :
    holder x'.srv.out n = some s := by
  have hf : ¬ Fatal x.srv.out k.recv := by
    intro hf
    obtain ⟨e, h1⟩ := (C116_raises_iff hg hserved h hk).2 hf
    rw [h1] at he
    cases he
  obtain ⟨i1, i2, _⟩ := h.inv hg hserved
  obtain ⟨σ', h1, _, h3⟩ := (iteration_any (cfg := cfg) hg hserved i1 hk).2 (fun hc => hf (fatal_strip.1 hc))
  obtain ⟨y, h4, h5⟩ := (iteration_of_strip (cfg := cfg) (k := k) i2).2 σ' h1
  rw [he] at h4
  cases h4
  have h6 := h3 n s (by
    rw [show (strip g x.srv).out = x.srv.out.filter (ofPipeline g) from rfl, holder_strip]; exact hn) hs hc
  rw [← h5, show (strip g x'.srv).out = x'.srv.out.filter (ofPipeline g) from rfl, holder_strip] at h6
  exact h6

theorem strip_count {out : List (Out N T S)} {s : S} {t : T} :
    (out.filter (ofPipeline g)).count (.shutdown s t) = out.count (.shutdown s t) :=
  List.count_filter rfl

/-- C116: a client that has no block and does not ask for blocks of the pipeline changes nothing, except that it is told to
shut down if it asks for blocks of another task. -/
theorem C116_strangers (hg : g.Loose) (hserved : ∀ n ∈ g.nodes, g.task n ∈ cfg.served) (h : OpenRun g cfg ks x)
    {k : Server.Tick N T S} (hk : AnyTick g k) {m : Msg N T} {s : S} (hr : k.recv = .msg m s)
    (hs : ∀ n, holder x.srv.out n ≠ some s) (hm : ∀ t, m = .acquire t → t ∉ cfg.served)
    (hc : ∀ n s', holder x.srv.out n = some s' → k.closed s' = false) (he : x.iteration g cfg k = .ok x') :
    x'.srv.sched = x.srv.sched ∧ x'.srv.book = x.srv.book ∧ x'.srv.pending = x.srv.pending ∧
    evs x'.srv.out = evs x.srv.out ∧
    ∀ s' t, x'.srv.out.count (.shutdown s' t) =
      x.srv.out.count (.shutdown s' t) + if m = .acquire t ∧ s = s' then 1 else 0 := by
  obtain ⟨i1, i2, _⟩ := h.inv hg hserved
  have h1 := strip_iteration (cfg := cfg) i2 k
  rw [he] at h1
  have hh : ∀ n, holder (strip g x.srv).out n = holder x.srv.out n := fun n => holder_strip _ n
  obtain ⟨a1, a2, a3, a4, a5⟩ := iteration_stranger hg hserved i1 hk hr (fun n => by rw [hh]; exact hs n) hm
    (fun n s' hn => hc n s' (by rw [← hh]; exact hn)) h1.symm
  refine ⟨a1, a2, a3, ?_, ?_⟩
  · rw [← evs_strip (g := g), ← evs_strip (g := g) x.srv.out]
    exact a4
  · intro s' t
    rw [← strip_count (g := g), ← strip_count (g := g) (out := x.srv.out)]
    exact a5 s' t

/-- C116: a task that is not in the pipeline is announced as done, once, if and only if some client has asked for it. -/
theorem C116_unknown (hg : g.Loose) (hserved : ∀ n ∈ g.nodes, g.task n ∈ cfg.served) (htasks : ∀ t ∈ cfg.served, t ∈ g.tasks)
    (h : OpenRun g cfg ks x) {t : T} (ht : t ∉ g.tasks) :
    (Requested ks t → x.srv.out.count (.taskDone t) = 1) ∧ (¬ Requested ks t → .taskDone t ∉ x.srv.out) := by
  have hkey : t ∈ x.extra ↔ Requested ks t := by
    induction h with
    | init => exact ⟨fun h => (by cases h), fun ⟨k, hk, _⟩ => (by cases hk)⟩
    | step k h hs hk he ih =>
      rename_i ks y y'
      have hreq : Requested (ks ++ [k]) t ↔ Requested ks t ∨ ∃ s, k.recv = .msg (.acquire t) s := by
        constructor
        · rintro ⟨k', hk', hr⟩
          rcases List.mem_append.1 hk' with h | h
          · exact Or.inl ⟨k', h, hr⟩
          · rw [List.mem_singleton] at h
            subst h
            exact Or.inr hr
        · rintro (⟨k', hk', hr⟩ | hr)
          · exact ⟨k', List.mem_append_left _ hk', hr⟩
          · exact ⟨k, by simp, hr⟩
      rw [hreq, ← ih]
      clear ih hreq
      have hadd : ∀ m : Msg N T, t ∈ Server.addKeys g y.extra m ↔ t ∈ y.extra ∨ m = .acquire t := by
        intro m
        cases m with
        | acquire t' =>
          simp only [Server.addKeys]
          split
          · rename_i hc
            constructor
            · exact Or.inl
            · rintro (h | h)
              · exact h
              · cases h
                rcases hc with hc | hc
                · exact absurd ((mem_keys hg _).1 hc) ht
                · exact hc
          · rw [List.mem_append, List.mem_singleton]
            constructor
            · rintro (h | h)
              · exact Or.inl h
              · exact Or.inr (by rw [h])
            · rintro (h | h)
              · exact Or.inl h
              · exact Or.inr (by injection h with h; exact h.symm)
        | _ => simp [Server.addKeys]
      have hex : ∀ σ1 extra1, y.srv.handleMessagesOpen g cfg y.extra k.chk k.pick k.now k.recv = .ok (σ1, extra1) →
          (t ∈ extra1 ↔ t ∈ y.extra ∨ ∃ s, k.recv = .msg (.acquire t) s) := by
        intro σ1 extra1 h1
        rcases hr : k.recv with ⟨m, s⟩ | _ | _
        · rw [hr] at h1
          rw [handleOpen_extra h1, hadd]
          constructor
          · rintro (h | rfl)
            · exact Or.inl h
            · exact Or.inr ⟨s, rfl⟩
          · rintro (h | ⟨s', h⟩)
            · exact Or.inl h
            · cases h; exact Or.inr rfl
        · rw [hr] at h1
          have : t ∈ extra1 ↔ t ∈ y.extra := by
            unfold Server.handleMessagesOpen at h1
            simp only at h1
            split at h1
            · cases h1; exact Iff.rfl
            · rename_i t' ht'
              split at h1
              · cases h1; exact Iff.rfl
              · rw [handleOpen_extra h1, hadd]
                constructor
                · rintro (h | h)
                  · exact h
                  · cases h
                    exact absurd (htasks _ (List.mem_of_find?_eq_some ht')) ht
                · exact Or.inl
          rw [this]
          exact ⟨Or.inl, fun h => h.elim id (fun ⟨s, e⟩ => by cases e)⟩
        · rw [hr] at h1
          cases h1
          exact ⟨Or.inl, fun h => h.elim id (fun ⟨s, e⟩ => by cases e)⟩
      unfold OpenServer.iteration at he
      rcases h1 : y.srv.handleMessagesOpen g cfg y.extra k.chk k.pick k.now k.recv with e | ⟨σ1, extra1⟩
      · rw [h1] at he; cases he
      · rw [h1] at he
        simp only at he
        split at he
        · cases he
        · cases he
          exact hex σ1 extra1 h1
  obtain ⟨_, _, i3⟩ := h.inv hg hserved
  obtain ⟨h1, _⟩ := i3 t ht
  constructor
  · intro hr
    rw [h1, if_pos (hkey.2 hr)]
  · intro hr
    rw [if_neg (fun hc => hr (hkey.1 hc))] at h1
    exact List.count_eq_zero.1 h1

/-- C116 is false: one message of an unknown kind stops the server, whoever sent it. -/
theorem C116_false : ¬ C116_statement := by
  intro hC
  obtain ⟨x', h⟩ := hC _ _ _ Nat Ex.line Ex.lineConf.cfg Ex.line_ok (by decide) [] (OpenServer.init Ex.line)
    (tick pickMin (.msg .other 7)) .init ⟨(by rintro m s e; cases e; trivial), pickMin_legal, fun _ => pickMin_legal⟩
  cases h

/-- Run iterations one after the other. -/
def openExec (g : DGraph N T K) (cfg : SConf T) : List (Server.Tick N T S) → OpenServer N T K S → Option (OpenServer N T K S)
  | [], x => some x
  | k :: ks, x =>
    if x.srv.stop = false then
      match x.iteration g cfg k with
      | .ok x' => openExec g cfg ks x'
      | .error _ => none
    else none

theorem openExec_run {α : Type} (f : OpenServer N T K S → α) {v : α} : ∀ (ks ks₀ : List (Server.Tick N T S))
    (x : OpenServer N T K S), (∀ k ∈ ks, AnyTick g k) → OpenRun g cfg ks₀ x → (openExec g cfg ks x).map f = some v →
    ∃ x', OpenRun g cfg (ks₀ ++ ks) x' ∧ f x' = v
  | [], ks₀, x, _, h, he => ⟨x, by simpa using h, by simpa [openExec] using he⟩
  | k :: ks, ks₀, x, hk, h, he => by
    simp only [openExec] at he
    split at he
    · rename_i hs
      split at he
      · rename_i x1 h1
        have := openExec_run f ks (ks₀ ++ [k]) x1 (fun k' hk' => hk k' (List.mem_cons_of_mem _ hk'))
          (.step k h hs (hk k List.mem_cons_self) h1) he
        simpa using this
      · cases he
    · cases he

namespace Ex.Strange

/-- Two blocks, the second depends on the first; task 1 is not in the pipeline. -/
def graph : DGraph (Fin 2) (Fin 2) (Fin 2) :=
  { finGraph 2 2 (fun n => if n = 1 then [0] else []) (fun _ => 0) (fun _ => 0) [0] with tasks := [0] }

theorem graph_ok : graph.OK where
  nodes_nodup := List.nodup_finRange 2
  up_mem := fun _ _ m _ => List.mem_finRange m
  down_mem := fun _ _ m _ => List.mem_finRange m
  up_nodup := by decide
  down_nodup := by decide
  dual := by decide
  acyclic := ⟨fun n => n.1, by decide⟩
  key_inj := fun a _ b _ h => h
  tasks_nodup := by decide
  task_mem := by decide
  total_eq := fun t _ => ⟨(List.finRange 2).filter (fun n => (fun _ : Fin 2 => (0 : Fin 2)) n = t),
    (List.nodup_finRange 2).filter _, by intro n; simp [graph, finGraph], rfl⟩
  rootTasks_nodup := by decide
  rootTasks_mem := by decide
  numRoots_eq := fun t _ => rfl
  rootGen_nodup := by decide
  rootGen_mem := by intro t _ n; simp [graph, finGraph]
  other_tasks := by decide

def conf : SConf (Fin 2) := ⟨[0], fun _ => none⟩

/-- Client 7 gets block 0.  Client 8, which has no block, returns it with an impossible status, says that it failed, and
returns a block that nobody has; client 9 asks for the unknown task twice. -/
def noise : List (Server.Tick (Fin 2) (Fin 2) Nat) :=
  [.msg (.acquire 0) 7, .msg (.release 0 .processing) 8, .msg (.blockFailed 0 3) 8, .msg (.release 1 .created) 8,
    .msg (.acquire 1) 9, .msg (.acquire 1) 9].map (fun r => tick pickMin r)

theorem any (r : Server.Recv (Fin 2) (Fin 2) Nat) : AnyTick graph (tick pickMin r) := by
  refine ⟨?_, pickMin_legal, fun _ => pickMin_legal⟩
  intro m s _
  cases m <;> first | trivial | exact fun n' _ h => h

theorem any_noise : ∀ k ∈ noise, AnyTick graph k := by
  intro k hk
  obtain ⟨r, _, rfl⟩ := List.mem_map.1 hk
  exact any r

end Ex.Strange

open Ex.Strange in
/-- The hypotheses of the theorems above are met by an execution with strange clients, in which client 7 still has its
block at the end, and can return it.  If it does so with an impossible status, the server raises. -/
example : ∃ x, OpenRun graph conf noise x ∧ (∀ n ∈ graph.nodes, graph.task n ∈ conf.served) ∧
    (∀ t ∈ conf.served, t ∈ graph.tasks) ∧ (1 : Fin 2) ∉ graph.tasks ∧
    holder x.srv.out 0 = some 7 ∧ x.srv.out.count (.taskDone 1) = 1 ∧ x.srv.out.count (.shutdown 9 1) = 2 ∧
    (∃ x', x.iteration graph conf (tick pickMin (.msg (.release 0 .success) 7)) = .ok x') ∧
    x.iteration graph conf (tick pickMin (.msg (.release 0 .created) 7)) = .error .runtimeError := by
  have hx : (openExec graph conf noise (OpenServer.init graph)).map (fun x =>
      decide (holder x.srv.out 0 = some 7 ∧ x.srv.out.count (.taskDone 1) = 1 ∧ x.srv.out.count (.shutdown 9 1) = 2)) =
      some true := by decide +kernel
  obtain ⟨x, h, e⟩ := openExec_run _ noise [] _ any_noise .init hx
  obtain ⟨e1, e2, e3⟩ := of_decide_eq_true e
  refine ⟨x, by simpa using h, by decide, by decide, by decide, e1, e2, e3, ?_, ?_⟩
  · rcases hk : x.iteration graph conf (tick pickMin (.msg (.release 0 .success) 7)) with e | x'
    · have := (C116_raises_iff graph_ok (by decide) h (any _)).1 ⟨e, hk⟩
      exact absurd rfl this.2.1
    · exact ⟨x', rfl⟩
  · obtain ⟨e, he⟩ := (C116_raises_iff (k := tick pickMin (.msg (.release 0 .created) 7)) graph_ok (by decide) h
      (any _)).2 ⟨e1, by decide, by decide⟩
    rcases C116_which graph_ok (by decide) h (any _) he with ⟨s, h1, _⟩ | ⟨s, h1, _⟩ | ⟨n, st, s, h1, h2⟩
    · cases h1
    · cases h1
    · rw [he, h2]

end Verif
