import Verif.Props.Context

/-! # C48: a client is only made of a complete context -/

namespace Verif

open Spec Ctx

/-- The dict has the key, with this value. -/
def Spec.HasKey (c : Ctx) (k v : PyStr) : Prop := (k, v) ∈ c

private theorem get_has {c : Ctx} {k v : PyStr} (h : c.get k = .ok v) : HasKey c k v := by
  unfold Ctx.get at h
  split at h
  · cases h
  · rename_i e he
    cases h
    have h1 := List.mem_of_find?_eq_some he
    have h2 := List.find?_some he
    have h3 : e.1 = k := by simpa using h2
    subst h3
    exact h1

/-- C48: nothing that a client needs is made up: it all stands in the context it reads. -/
theorem C48_complete {l' : PyStr} {env : Option PyStr} {conf : ClientConf} (h : ClientConf.read l' env = .ok conf) :
    ∃ c port wid, fromEnv l' env = .ok c ∧ HasKey c "logdir".toList conf.logdir ∧
      HasKey c "hostname".toList conf.host ∧ HasKey c "port".toList port ∧ pyInt port = .ok conf.port ∧
      HasKey c "worker_id".toList wid ∧ pyInt wid = .ok conf.workerId ∧ HasKey c "task_id".toList conf.taskId := by
  unfold ClientConf.read at h
  split at h
  · cases h
  rename_i c hc
  split at h
  · cases h
  rename_i h1
  split at h
  · cases h
  rename_i h2
  split at h
  · cases h
  rename_i h3
  split at h
  · cases h
  rename_i h4
  split at h
  · cases h
  rename_i h5
  split at h
  · cases h
  rename_i h6
  split at h
  · cases h
  rename_i h7
  cases h
  exact ⟨c, _, _, hc, get_has h1, get_has h2, get_has h3, h4, get_has h5, h6, get_has h7⟩

/-- C48: if a key is missing, no client is made. -/
theorem C48_missing {l' : PyStr} {env : Option PyStr} {c : Ctx} (hc : fromEnv l' env = .ok c)
    (h : ∃ k ∈ ["logdir".toList, "hostname".toList, "port".toList, "worker_id".toList, "task_id".toList],
      ∀ v, ¬ HasKey c k v) : ∃ e, ClientConf.read l' env = .error e := by
  rcases hr : ClientConf.read l' env with e | conf
  · exact ⟨e, rfl⟩
  obtain ⟨c', port, wid, h0, h1, h2, h3, -, h5, -, h7⟩ := C48_complete hr
  rw [hc] at h0
  cases h0
  obtain ⟨k, hk, hv⟩ := h
  simp only [List.mem_cons, List.not_mem_nil, or_false] at hk
  rcases hk with rfl | rfl | rfl | rfl | rfl
  · exact absurd h1 (hv _)
  · exact absurd h2 (hv _)
  · exact absurd h3 (hv _)
  · exact absurd h5 (hv _)
  · exact absurd h7 (hv _)

/-- A context with and one without a worker id. -/
example : (∃ conf, ClientConf.read "/l".toList
      (some "logdir=/x:hostname=h:port=57:task_id=t:worker_id=3".toList) = .ok conf ∧ conf.port = 57) ∧
    ∃ c, fromEnv "/l".toList (some "logdir=/x:hostname=h:port=57:task_id=t".toList) = .ok c ∧
      ∀ v, ¬ HasKey c "worker_id".toList v := by
  refine ⟨⟨⟨"/x".toList, "h".toList, 57, 3, "t".toList⟩, by decide +kernel, rfl⟩,
    [("logdir".toList, "/x".toList), ("hostname".toList, "h".toList), ("port".toList, "57".toList),
      ("task_id".toList, "t".toList)], by decide +kernel, ?_⟩
  intro v hv
  unfold HasKey at hv
  simp at hv

end Verif
