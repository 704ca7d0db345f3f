import Verif.Model.Context

namespace Verif

theorem pySplit_ne_nil (c : Char) (s : PyStr) : pySplit c s ≠ [] := by
  cases s with
  | nil => simp [pySplit]
  | cons x xs =>
    unfold pySplit
    split
    · simp
    · split <;> simp

theorem pySplit_no_sep {c : Char} {s : PyStr} (h : c ∉ s) : pySplit c s = [s] := by
  induction s with
  | nil => rfl
  | cons x xs ih =>
    simp only [List.mem_cons, not_or] at h
    unfold pySplit
    rw [if_neg (fun e => h.1 e.symm), ih h.2]

theorem pySplit_append {c : Char} {w : PyStr} (s : PyStr) (h : c ∉ w) :
    pySplit c (w ++ c :: s) = w :: pySplit c s := by
  induction w with
  | nil => simp [pySplit]
  | cons x xs ih =>
    simp only [List.mem_cons, not_or] at h
    rw [List.cons_append]
    conv_lhs => unfold pySplit
    rw [if_neg (fun e => h.1 e.symm), ih h.2]

theorem pySplit_join {c : Char} : ∀ {ws : List PyStr}, ws ≠ [] → (∀ w ∈ ws, c ∉ w) →
    pySplit c (pyJoin c ws) = ws
  | [], h, _ => absurd rfl h
  | [w], _, h => pySplit_no_sep (h w List.mem_cons_self)
  | w :: v :: ws, _, h => by
    rw [pyJoin, pySplit_append _ (h w List.mem_cons_self)]
    · rw [pySplit_join (by simp) (fun x hx => h x (List.mem_cons_of_mem _ hx))]
    · simp

/-- The words `split` returns do not contain the separator. -/
theorem pySplit_words {c : Char} {s w : PyStr} (h : w ∈ pySplit c s) : c ∉ w := by
  induction s generalizing w with
  | nil => simp [pySplit] at h; simp [h]
  | cons x xs ih =>
    unfold pySplit at h
    split at h
    · rcases List.mem_cons.1 h with rfl | h
      · simp
      · exact ih h
    · rename_i hx
      split at h
      · rename_i e; exact absurd e (pySplit_ne_nil c xs)
      · rename_i v vs e
        rcases List.mem_cons.1 h with rfl | h
        · simp only [List.mem_cons, not_or]
          exact ⟨fun e => hx e.symm, ih (e ▸ List.mem_cons_self)⟩
        · exact ih (e ▸ List.mem_cons_of_mem _ h)

theorem digitChar_toNat {n : Nat} (h : n < 10) : (digitChar n).toNat = 48 + n := by
  have : ∀ n < 10, (digitChar n).toNat = 48 + n := by decide
  exact this n h

theorem pyStrNat_digits (n : Nat) : ∀ c ∈ pyStrNat n, ∃ k < 10, c = digitChar k := by
  induction n using Nat.strongRecOn with
  | _ n ih =>
    unfold pyStrNat
    split
    · rename_i h; intro c hc; rw [List.mem_singleton] at hc; exact ⟨n, h, hc⟩
    · rename_i h
      intro c hc
      rcases List.mem_append.1 hc with hc | hc
      · exact ih _ (by omega) c hc
      · rw [List.mem_singleton] at hc; exact ⟨_, Nat.mod_lt _ (by omega), hc⟩

theorem pyStrNat_sep (n : Nat) : '=' ∉ pyStrNat n ∧ ':' ∉ pyStrNat n := by
  have h1 : ∀ k < 10, digitChar k ≠ '=' ∧ digitChar k ≠ ':' := by decide
  constructor <;> intro h <;> obtain ⟨k, hk, e⟩ := pyStrNat_digits n _ h
  · exact (h1 k hk).1 e.symm
  · exact (h1 k hk).2 e.symm

theorem pyStrNat_fold (n : Nat) :
    (pyStrNat n).foldl (fun a c => 10 * a + (c.toNat - 48)) 0 = n := by
  induction n using Nat.strongRecOn with
  | _ n ih =>
    unfold pyStrNat
    split
    · rename_i h; simp [digitChar_toNat h]
    · rename_i h
      rw [List.foldl_append, ih _ (by omega)]
      simp only [List.foldl_cons, List.foldl_nil, digitChar_toNat (Nat.mod_lt n (show 0 < 10 by omega))]
      omega

theorem pyInt_strNat (n : Nat) : pyInt (pyStrNat n) = .ok n := by
  unfold pyInt
  rw [if_pos, pyStrNat_fold]
  constructor
  · unfold pyStrNat; split <;> simp
  · rw [List.all_eq_true]
    intro c hc
    obtain ⟨k, hk, rfl⟩ := pyStrNat_digits n c hc
    rw [digitChar_toNat hk]
    simp
    omega

namespace Ctx

/-- No key or value contains a separator. -/
def Clean (c : Ctx) : Prop := ∀ e ∈ c, '=' ∉ e.1 ∧ ':' ∉ e.1 ∧ '=' ∉ e.2 ∧ ':' ∉ e.2

theorem Clean.put {c : Ctx} (h : Clean c) {k v : PyStr} (hk : '=' ∉ k ∧ ':' ∉ k)
    (hv : '=' ∉ v ∧ ':' ∉ v) : Clean (c.put k v) := by
  unfold Ctx.put
  split
  · intro e he
    obtain ⟨e', he', rfl⟩ := List.mem_map.1 he
    split
    · exact ⟨hk.1, hk.2, hv.1, hv.2⟩
    · exact h _ he'
  · intro e he
    rcases List.mem_append.1 he with he | he
    · exact h _ he
    · rw [List.mem_singleton] at he; subst he; exact ⟨hk.1, hk.2, hv.1, hv.2⟩

/-- Reading tokens stores each of them; nothing else can come out of it. -/
theorem readTokens_ok : ∀ {es : List (PyStr × PyStr)}, (∀ e ∈ es, '=' ∉ e.1 ∧ ':' ∉ e.1 ∧
    '=' ∉ e.2 ∧ ':' ∉ e.2) → ∀ (c : Ctx), readTokens (es.map (fun e => e.1 ++ '=' :: e.2)) c =
      .ok (es.foldl (fun c e => c.put e.1 e.2) c)
  | [], _, _ => rfl
  | (k, v) :: es, h, c => by
    obtain ⟨h1, h2, h3, h4⟩ := h (k, v) List.mem_cons_self
    simp only [List.map_cons, readTokens, List.foldl_cons]
    rw [pySplit_append _ h1, pySplit_no_sep h3]
    simp only [Ctx.set, h1, h2, h3, h4, or_self, if_false]
    exact readTokens_ok (fun e he => h e (List.mem_cons_of_mem _ he)) _

theorem put_new {c : Ctx} {k v : PyStr} (h : k ∉ c.map (·.1)) : c.put k v = c ++ [(k, v)] := by
  unfold Ctx.put
  rw [if_neg]
  intro hc
  obtain ⟨e, he, hk⟩ := List.any_eq_true.1 hc
  exact h (List.mem_map.2 ⟨e, he, of_decide_eq_true hk⟩)

theorem foldl_put : ∀ (es c : Ctx), ((c ++ es).map (·.1)).Nodup →
    es.foldl (fun c e => c.put e.1 e.2) c = c ++ es
  | [], c, _ => by simp
  | (k, v) :: es, c, h => by
    have hk : k ∉ c.map (·.1) := by
      rw [List.map_append, List.map_cons, List.nodup_append] at h
      intro hc
      exact h.2.2 _ hc _ List.mem_cons_self rfl
    rw [List.foldl_cons, put_new hk, foldl_put es _ (by simpa using h)]
    simp

theorem put_head {l l' : PyStr} {k : PyStr} : put [(k, l)] k l' = [(k, l')] := by
  simp [Ctx.put]

/-- Writing and reading a clean context that starts with the log directory. -/
theorem fromEnv_toEnv {l : PyStr} {kw : Ctx} (hc : Clean (new l kw))
    (hn : ((new l kw).map (·.1)).Nodup) (l' : PyStr) :
    fromEnv l' (some (new l kw).toEnv) = .ok (new l kw) := by
  unfold fromEnv toEnv
  dsimp only
  rw [pySplit_join (by simp [new])]
  · rw [readTokens_ok hc]
    rw [show new l kw = ("logdir".toList, l) :: kw from rfl, List.foldl_cons,
      show new l' [] = [("logdir".toList, l')] from rfl, put_head, foldl_put _ _ (by simpa [new] using hn)]
    rfl
  · intro w hw
    obtain ⟨e, he, rfl⟩ := List.mem_map.1 hw
    obtain ⟨_, h2, _, h4⟩ := hc e he
    simp [h2, h4]

theorem set_ok {c c' : Ctx} {k v : PyStr} (h : c.set k v = .ok c') :
    ('=' ∉ k ∧ ':' ∉ k) ∧ ('=' ∉ v ∧ ':' ∉ v) ∧ c' = c.put k v := by
  unfold Ctx.set at h
  split at h
  · cases h
  · split at h
    · cases h
    · rename_i h1 h2
      cases h
      exact ⟨by tauto, by tauto, rfl⟩

/-- Whatever `from_env` reads, no value it stores contains a separator; the log directory it starts
with is replaced if there is one in the environment. -/
theorem readTokens_stored : ∀ {ts : List PyStr} {c c' : Ctx}, readTokens ts c = .ok c' →
    ∀ e ∈ c', e ∈ c ∨ ('=' ∉ e.2 ∧ ':' ∉ e.2)
  | [], c, c', h, e, he => by
    cases h; exact Or.inl he
  | t :: ts, c, c', h, e, he => by
    unfold readTokens at h
    split at h
    · rename_i k v _
      split at h
      · cases h
      · rename_i c1 h1
        obtain ⟨_, hv, rfl⟩ := set_ok h1
        rcases readTokens_stored h e he with h2 | h2
        · unfold Ctx.put at h2
          split at h2
          · obtain ⟨e', he', rfl⟩ := List.mem_map.1 h2
            split
            · exact Or.inr hv
            · exact Or.inl he'
          · rcases List.mem_append.1 h2 with h2 | h2
            · exact Or.inl h2
            · rw [List.mem_singleton] at h2; subst h2; exact Or.inr hv
        · exact Or.inr h2
    · cases h

end Ctx
/-- The number of words is the number of separators plus one. -/
theorem pySplit_length (c : Char) (s : PyStr) : (pySplit c s).length = s.count c + 1 := by
  induction s with
  | nil => rfl
  | cons x xs ih =>
    unfold pySplit
    split_ifs with h
    · subst h; simp [ih]
    · rw [List.count_cons_of_ne h]
      cases e : pySplit c xs with
      | nil => exact absurd e (pySplit_ne_nil _ _)
      | cons w ws => rw [e] at ih; simpa using ih

theorem pySplit_sub {c : Char} {s w : PyStr} (h : w ∈ pySplit c s) {x : Char} (hx : x ∈ w) : x ∈ s := by
  induction s generalizing w with
  | nil => simp [pySplit] at h; subst h; exact hx
  | cons y ys ih =>
    unfold pySplit at h
    split_ifs at h
    · rcases List.mem_cons.1 h with rfl | h
      · cases hx
      · exact List.mem_cons_of_mem _ (ih h hx)
    · cases e : pySplit c ys with
      | nil => exact absurd e (pySplit_ne_nil _ _)
      | cons v vs =>
        rw [e] at h ih
        rcases List.mem_cons.1 h with rfl | h
        · rcases List.mem_cons.1 hx with rfl | hx
          · exact List.mem_cons_self
          · exact List.mem_cons_of_mem _ (ih List.mem_cons_self hx)
        · exact List.mem_cons_of_mem _ (ih (List.mem_cons_of_mem _ h) hx)

theorem readTokens_cases : ∀ (ts : List PyStr) (c : Ctx), (∀ t ∈ ts, ':' ∉ t) →
    ((∀ t ∈ ts, t.count '=' = 1) ∧ ∃ c', Ctx.readTokens ts c = .ok c') ∨
    ((∃ t ∈ ts, t.count '=' ≠ 1) ∧ Ctx.readTokens ts c = .error .valueError)
  | [], c, _ => Or.inl ⟨(fun _ h => by cases h), c, rfl⟩
  | t :: ts, c, h => by
    have hl := pySplit_length '=' t
    unfold Ctx.readTokens
    split
    · next k v e =>
      rw [e] at hl
      have hc : t.count '=' = 1 := by simpa using hl.symm
      have hk : '=' ∉ k ∧ '=' ∉ v := ⟨pySplit_words (by rw [e]; simp), pySplit_words (s := t) (by rw [e]; simp)⟩
      have hk' : ':' ∉ k ∧ ':' ∉ v := ⟨fun hx => h t List.mem_cons_self (pySplit_sub (by rw [e]; simp) hx),
        fun hx => h t List.mem_cons_self (pySplit_sub (c := '=') (by rw [e]; simp) hx)⟩
      have hs : c.set k v = .ok (c.put k v) := by
        unfold Ctx.set
        rw [if_neg (by tauto), if_neg (by tauto)]
      rw [hs]
      rcases readTokens_cases ts (c.put k v) (fun t' h' => h t' (List.mem_cons_of_mem _ h')) with ⟨h1, h2⟩ | ⟨⟨t', h1, h2⟩, h3⟩
      · refine Or.inl ⟨?_, h2⟩
        intro t' ht'
        rcases List.mem_cons.1 ht' with rfl | ht'
        · exact hc
        · exact h1 t' ht'
      · exact Or.inr ⟨⟨t', List.mem_cons_of_mem _ h1, h2⟩, h3⟩
    · next hne =>
      refine Or.inr ⟨⟨t, List.mem_cons_self, ?_⟩, rfl⟩
      intro hc
      rw [hc] at hl
      match hq : pySplit '=' t, hl with
      | [k, v], _ => exact hne k v hq

end Verif
