import Verif.Proofs.Context

/-! # C48: the worker context survives the environment variable -/

namespace Verif

/-- The string contains none of the two separators. -/
def Spec.NoSep (s : PyStr) : Prop := '=' ∉ s ∧ ':' ∉ s

open Spec Ctx

private theorem worker_eq (logdir host : PyStr) (port : Nat) (task : PyStr) (wid : Nat) :
    (pool logdir host port task).worker wid = .ok (new logdir [("hostname".toList, host),
      ("port".toList, pyStrNat port), ("task_id".toList, task), ("worker_id".toList, pyStrNat wid)]) := by
  unfold Ctx.worker Ctx.set
  rw [if_neg (by decide), if_neg (by have := pyStrNat_sep wid; tauto), put_new (by simp [pool, new])]
  rfl

private theorem keys_nodup (logdir host port task wid : PyStr) :
    ((new logdir [("hostname".toList, host), ("port".toList, port), ("task_id".toList, task),
      ("worker_id".toList, wid)]).map (·.1)).Nodup := by
  simp only [new, List.map_cons, List.map_nil]
  decide

/-- C48 for values without separators: the worker reads exactly the context it was given, whatever
its own log directory was. -/
theorem C48_roundtrip_partial (logdir host : PyStr) (port : Nat) (task : PyStr) (wid : Nat) (l' : PyStr)
    (h1 : NoSep logdir) (h2 : NoSep host) (h3 : NoSep task) :
    ∃ c, (pool logdir host port task).worker wid = .ok c ∧ fromEnv l' (some c.toEnv) = .ok c := by
  refine ⟨_, worker_eq logdir host port task wid, fromEnv_toEnv ?_ (keys_nodup _ _ _ _ _) l'⟩
  intro e he
  have hp := pyStrNat_sep port
  have hw := pyStrNat_sep wid
  simp only [new, List.mem_cons, List.not_mem_nil, or_false] at he
  rcases he with rfl | rfl | rfl | rfl | rfl
  · exact ⟨(by decide : '=' ∉ "logdir".toList), (by decide : ':' ∉ "logdir".toList), h1⟩
  · exact ⟨(by decide : '=' ∉ "hostname".toList), (by decide : ':' ∉ "hostname".toList), h2⟩
  · exact ⟨(by decide : '=' ∉ "port".toList), (by decide : ':' ∉ "port".toList), hp⟩
  · exact ⟨(by decide : '=' ∉ "task_id".toList), (by decide : ':' ∉ "task_id".toList), h3⟩
  · exact ⟨(by decide : '=' ∉ "worker_id".toList), (by decide : ':' ∉ "worker_id".toList), hw⟩

/-- The client of the worker connects to the address of the server, with the ids it was given. -/
theorem C48_client_partial (logdir host : PyStr) (port : Nat) (task : PyStr) (wid : Nat) (l' : PyStr)
    (h1 : NoSep logdir) (h2 : NoSep host) (h3 : NoSep task) :
    ∃ c, (pool logdir host port task).worker wid = .ok c ∧
      ClientConf.read l' (some c.toEnv) = .ok ⟨logdir, host, port, wid, task⟩ := by
  obtain ⟨c, hc, hr⟩ := C48_roundtrip_partial logdir host port task wid l' h1 h2 h3
  refine ⟨c, hc, ?_⟩
  rw [worker_eq] at hc
  cases hc
  unfold ClientConf.read
  rw [hr]
  have e1 : ("logdir".toList = "hostname".toList) = False := by decide
  have e2 : ("logdir".toList = "port".toList) = False := by decide
  have e3 : ("logdir".toList = "worker_id".toList) = False := by decide
  have e4 : ("logdir".toList = "task_id".toList) = False := by decide
  have e5 : ("hostname".toList = "port".toList) = False := by decide
  have e6 : ("hostname".toList = "worker_id".toList) = False := by decide
  have e7 : ("hostname".toList = "task_id".toList) = False := by decide
  have e8 : ("port".toList = "worker_id".toList) = False := by decide
  have e9 : ("port".toList = "task_id".toList) = False := by decide
  have e10 : ("task_id".toList = "worker_id".toList) = False := by decide
  simp only [Ctx.get, new, List.find?_cons, decide_true, e1, e2, e3, e4, e5, e6, e7, e8, e9, e10,
    decide_false, pyInt_strNat]

/-- The log directory is the first thing read, so no value with a separator can be read at all. -/
theorem C48_read_values (logdir : PyStr) (kw : Ctx) (l' : PyStr) (c : Ctx)
    (h : fromEnv l' (some (new logdir kw).toEnv) = .ok c) : ∀ e ∈ c, NoSep e.2 := by
  obtain ⟨rest, hrest⟩ : ∃ rest, (new logdir kw).toEnv = "logdir".toList ++ '=' :: rest := by
    unfold toEnv new
    rw [List.map_cons]
    cases kw.map (fun e => e.1 ++ '=' :: e.2) with
    | nil => exact ⟨_, rfl⟩
    | cons w ws => exact ⟨logdir ++ ':' :: pyJoin ':' (w :: ws), by simp [pyJoin]⟩
  obtain ⟨w, ws, hw⟩ : ∃ w ws, pySplit ':' rest = w :: ws := by
    cases e : pySplit ':' rest with
    | nil => exact absurd e (pySplit_ne_nil _ _)
    | cons w ws => exact ⟨w, ws, rfl⟩
  have hs : pySplit ':' ("logdir".toList ++ '=' :: rest) = ("logdir".toList ++ '=' :: w) :: ws := by
    show pySplit ':' ('l' :: 'o' :: 'g' :: 'd' :: 'i' :: 'r' :: '=' :: rest) = _
    simp only [pySplit, hw, show ('l' = ':') = False by decide, show ('o' = ':') = False by decide,
      show ('g' = ':') = False by decide, show ('d' = ':') = False by decide,
      show ('i' = ':') = False by decide, show ('r' = ':') = False by decide,
      show ('=' = ':') = False by decide, if_false]
    rfl
  unfold fromEnv at h
  rw [hrest] at h
  dsimp only at h
  rw [hs] at h
  unfold readTokens at h
  rw [pySplit_append _ (by decide)] at h
  split at h
  · rename_i k v e
    obtain ⟨rfl, e⟩ := List.cons.inj e
    split at h
    · cases h
    · rename_i c1 h1
      obtain ⟨_, hv, rfl⟩ := set_ok h1
      rw [show new l' [] = [("logdir".toList, l')] from rfl, put_head] at h
      intro x hx
      rcases readTokens_stored h x hx with h2 | h2
      · rw [List.mem_singleton] at h2
        subst h2
        exact hv
      · exact h2
  · cases h

/-- C48, exactly: the context survives iff no value contains a separator. -/
theorem C48_iff (logdir host : PyStr) (port : Nat) (task : PyStr) (wid : Nat) (l' : PyStr) :
    (∃ c, (pool logdir host port task).worker wid = .ok c ∧ fromEnv l' (some c.toEnv) = .ok c) ↔
      NoSep logdir ∧ NoSep host ∧ NoSep task := by
  constructor
  · rintro ⟨c, hc, hr⟩
    rw [worker_eq] at hc
    cases hc
    have h := C48_read_values _ _ _ _ hr
    exact ⟨h _ List.mem_cons_self, h _ (List.mem_cons_of_mem _ List.mem_cons_self),
      h ("task_id".toList, task) (by simp [new])⟩
  · rintro ⟨h1, h2, h3⟩
    exact C48_roundtrip_partial logdir host port task wid l' h1 h2 h3

/-- C48: which strings can be read as a context: those whose pieces between colons contain one `=` each.  All others
are rejected with `ValueError`, none is read in part.  Without the variable the reader gets a `KeyError`. -/
theorem C48_env (l' env : PyStr) :
    ((∃ c, fromEnv l' (some env) = .ok c) ↔ ∀ t ∈ pySplit ':' env, t.count '=' = 1) ∧
    ((∃ t ∈ pySplit ':' env, t.count '=' ≠ 1) → fromEnv l' (some env) = .error .valueError) ∧
    fromEnv l' none = .error .keyError := by
  refine and_assoc.1 ⟨?_, rfl⟩
  unfold fromEnv
  dsimp only
  rcases readTokens_cases (pySplit ':' env) (new l' []) (fun t ht => pySplit_words ht) with ⟨h1, h2⟩ | ⟨⟨t, h1, h2⟩, h3⟩
  · exact ⟨⟨fun _ => h1, fun _ => h2⟩, fun ⟨t, ht, h⟩ => absurd (h1 t ht) h⟩
  · refine ⟨⟨fun ⟨c, hc⟩ => ?_, fun h => absurd (h t h1) h2⟩, fun _ => h3⟩
    rw [h3] at hc
    cases hc

/-- C48: in particular an equals sign in a value is never lost silently: the client raises `ValueError`. -/
theorem C48_equals (logdir host : PyStr) (port : Nat) (task : PyStr) (wid : Nat) (l' : PyStr)
    (h1 : ':' ∉ logdir) (h2 : ':' ∉ host) (h3 : ':' ∉ task) (he : '=' ∈ logdir ∨ '=' ∈ host ∨ '=' ∈ task) :
    ∃ c, (pool logdir host port task).worker wid = .ok c ∧ fromEnv l' (some c.toEnv) = .error .valueError := by
  refine ⟨_, worker_eq logdir host port task wid, (C48_env _ _).2.1 ?_⟩
  have hp := (pyStrNat_sep port).2
  have hw := (pyStrNat_sep wid).2
  have hk : ∀ k v : PyStr, ':' ∉ k → ':' ∉ v → ':' ∉ k ++ '=' :: v := by
    intro k v a b
    simp only [List.mem_append, List.mem_cons, not_or]
    exact ⟨a, by decide, b⟩
  unfold toEnv
  rw [pySplit_join (by simp [new]) (by
    intro w hw'
    simp only [new, List.map_cons, List.map_nil, List.mem_cons, List.not_mem_nil, or_false] at hw'
    rcases hw' with rfl | rfl | rfl | rfl | rfl
    · exact hk _ _ (by decide) h1
    · exact hk _ _ (by decide) h2
    · exact hk _ _ (by decide) hp
    · exact hk _ _ (by decide) h3
    · exact hk _ _ (by decide) hw)]
  have hcount : ∀ k v : PyStr, '=' ∈ v → (k ++ '=' :: v).count '=' ≠ 1 := by
    intro k v hv
    have := List.one_le_count_iff.2 hv
    rw [List.count_append, List.count_cons_self]
    omega
  rcases he with he | he | he
  · exact ⟨_, List.mem_map.2 ⟨("logdir".toList, logdir), by simp [new], rfl⟩, hcount _ _ he⟩
  · exact ⟨_, List.mem_map.2 ⟨("hostname".toList, host), by simp [new], rfl⟩, hcount _ _ he⟩
  · exact ⟨_, List.mem_map.2 ⟨("task_id".toList, task), by simp [new], rfl⟩, hcount _ _ he⟩

/-- A task id with an equals sign. -/
example : '=' ∈ "sigma=2".toList ∧ ':' ∉ "sigma=2".toList := by decide

/-- A context as in the tests. -/
example : NoSep "./daisy_logs".toList ∧ NoSep "127.0.0.1".toList ∧ NoSep "task".toList ∧
    (((pool "./daisy_logs".toList "127.0.0.1".toList 38117 "task".toList).worker 12).map
      (fun c => String.ofList c.toEnv)) =
      .ok "logdir=./daisy_logs:hostname=127.0.0.1:port=38117:task_id=task:worker_id=12" := by
  refine ⟨⟨by decide, by decide⟩, ⟨by decide, by decide⟩, ⟨by decide, by decide⟩, ?_⟩
  decide +kernel

/-- C48 is false for host names with a colon (IPv6): the client cannot read the context and raises
`ValueError`.  Contexts are not checked when they are made with keyword arguments. -/
theorem C48_false : ∃ (logdir host : PyStr) (port : Nat) (task : PyStr) (wid : Nat) (c : Ctx),
    (pool logdir host port task).worker wid = .ok c ∧
    ClientConf.read logdir (some c.toEnv) = .error .valueError :=
  ⟨"logs".toList, "fe80::1".toList, 80, "task".toList, 0, _, worker_eq _ _ _ _ _, by decide +kernel⟩

/-- Worse, a task id can make the client connect to another port, silently. -/
theorem C48_false_silent : ∃ (logdir host : PyStr) (port : Nat) (task : PyStr) (wid : Nat) (c : Ctx)
    (conf : ClientConf), (pool logdir host port task).worker wid = .ok c ∧
    ClientConf.read logdir (some c.toEnv) = .ok conf ∧ conf.port ≠ port :=
  ⟨"logs".toList, "127.0.0.1".toList, 80, "a:port=1".toList, 0, _,
    ⟨"logs".toList, "127.0.0.1".toList, 1, 0, "a".toList⟩, worker_eq _ _ _ _ _, by decide +kernel, by decide⟩

end Verif
