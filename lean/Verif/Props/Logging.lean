import Verif.Model.Logging
import Verif.Proofs.Context

/-! # C74, C78: log files -/

namespace Verif

open Logging

private theorem strNat_plain (n : Nat) : '/' ∉ pyStrNat n ∧ '.' ∉ pyStrNat n := by
  constructor <;>
  · intro h
    obtain ⟨k, hk, e⟩ := pyStrNat_digits n _ h
    have := congrArg Char.toNat e
    rw [digitChar_toNat hk] at this
    revert this
    simp only [show '/'.toNat = 47 from rfl, show '.'.toNat = 46 from rfl]
    omega

private theorem strNat_inj {n m : Nat} (h : pyStrNat n = pyStrNat m) : n = m := by
  have := (pyInt_strNat n).symm.trans ((congrArg pyInt h).trans (pyInt_strNat m))
  exact Except.ok.inj this

private theorem ofStr_plain {w : PyStr} (h : '/' ∉ w) (hne : w ≠ []) (hd : w ≠ ['.']) : PyPath.ofStr w = ⟨false, [w]⟩ := by
  unfold PyPath.ofStr
  rw [pySplit_no_sep h]
  congr 1
  · cases w with
    | nil => exact absurd rfl hne
    | cons c w =>
      have : c ≠ '/' := fun e => h (e ▸ List.mem_cons_self)
      simp [this]
  · simp [hne, hd]

private theorem stem_plain {w : PyStr} (h : '.' ∉ w) : PyPath.stem w = w := by
  unfold PyPath.stem
  simp [h]

/-- The directory of the log files. -/
private def dir (b : PyPath) : Option PyStr → PyPath
  | some t => b.div (.ofStr t)
  | none => b

private def wname (n : Nat) : PyStr := "worker_".toList ++ pyStrNat n

private theorem wname_head (n : Nat) (s : PyStr) : (wname n ++ s).head? = some 'w' := by
  unfold wname
  rw [show "worker_".toList = 'w' :: "orker_".toList by decide +kernel]
  rfl

private theorem wname_plain (n : Nat) : '/' ∉ wname n ∧ '.' ∉ wname n := by
  obtain ⟨h1, h2⟩ := strNat_plain n
  refine ⟨fun h => (List.mem_append.1 h).elim (by decide) h1, fun h => (List.mem_append.1 h).elim (by decide) h2⟩

private theorem basename_eq (b : PyPath) (n : Nat) (t : Option PyStr) :
    basename (some b) (pyStrNat n) t = some ⟨(dir b t).abs, (dir b t).parts ++ [wname n]⟩ := by
  have : PyPath.ofStr (wname n) = ⟨false, [wname n]⟩ :=
    ofStr_plain (wname_plain n).1 (fun h => by have := wname_head n []; rw [h] at this; simp at this)
      (fun h => by have := wname_head n []; rw [h] at this; simp at this)
  unfold basename
  dsimp only
  cases t with
  | none =>
    show some (PyPath.div b (.ofStr (wname n))) = _
    rw [this]
    simp [PyPath.div, dir]
  | some t =>
    show some (PyPath.div (dir b (some t)) (.ofStr (wname n))) = _
    rw [this]
    simp [PyPath.div]

private theorem files_eq (b : PyPath) (cur : Option PyPath) (n : Nat) (t : Option PyStr) :
    workerFiles (some (some b)) cur n t = .ok (some (⟨(dir b t).abs, (dir b t).parts ++ [wname n ++ ".out".toList]⟩,
      ⟨(dir b t).abs, (dir b t).parts ++ [wname n ++ ".err".toList]⟩)) := by
  unfold workerFiles
  dsimp only
  rw [basename_eq]
  simp only [redirect, PyPath.withSuffix, List.getLast?_concat, List.dropLast_concat, stem_plain (wname_plain n).2]

/-- C74: a worker writes to two files, called after its id.  Nothing is raised. -/
theorem C74_names (b : PyPath) (cur : Option PyPath) (n : Nat) (t : Option PyStr) :
    ∃ o e, workerFiles (some (some b)) cur n t = .ok (some (o, e)) ∧
      o.parts.getLast? = some ("worker_".toList ++ pyStrNat n ++ ".out".toList) ∧
      e.parts.getLast? = some ("worker_".toList ++ pyStrNat n ++ ".err".toList) ∧
      o.abs = e.abs ∧ o.parts.dropLast = e.parts.dropLast := by
  refine ⟨_, _, files_eq b cur n t, ?_, ?_, rfl, ?_⟩
  · rw [List.getLast?_concat]; rfl
  · rw [List.getLast?_concat]; rfl
  · rw [List.dropLast_concat, List.dropLast_concat]

/-- C74: workers with different ids never write to the same file, whatever their tasks and directories; neither do the
two streams of one worker. -/
theorem C74_distinct {b b' : PyPath} {cur cur' : Option PyPath} {n m : Nat} {t t' : Option PyStr} {o e o' e' : PyPath}
    (h : workerFiles (some (some b)) cur n t = .ok (some (o, e)))
    (h' : workerFiles (some (some b')) cur' m t' = .ok (some (o', e'))) :
    o ≠ e ∧ o ≠ e' ∧ e ≠ o' ∧ (n ≠ m → o ≠ o' ∧ e ≠ e') := by
  rw [files_eq] at h h'
  cases h
  cases h'
  have suf : ∀ (x y : PyStr), x ++ ".out".toList ≠ y ++ ".err".toList := by
    intro x y hxy
    have := congrArg List.getLast? hxy
    rw [List.getLast?_append, List.getLast?_append, show ".out".toList.getLast? = some 't' by decide +kernel,
      show ".err".toList.getLast? = some 'r' by decide +kernel] at this
    simp at this
  have last : ∀ {p q : PyPath} {x y : PyStr}, (⟨p.abs, p.parts ++ [x]⟩ : PyPath) = ⟨q.abs, q.parts ++ [y]⟩ → x = y := by
    intro p q x y hpq
    have := congrArg (fun r : PyPath => r.parts.getLast?) hpq
    simpa using this
  refine ⟨fun hc => suf _ _ (last hc), fun hc => suf _ _ (last hc), fun hc => suf _ _ (last hc).symm, fun hnm => ?_⟩
  constructor <;>
  · intro hc
    have h1 := List.append_cancel_right (last hc)
    exact hnm (strNat_inj (List.append_cancel_left h1))

/-- C74, partial.  The full claim is for all task ids and is false (`C74_false_absolute`, `C74_false_up`): if the task id
has no slash and is not `..`, the files of a worker are inside of the log directory (the directory comes first, and no
part after it leads up again). -/
theorem C74_inside_partial {b : PyPath} {cur : Option PyPath} {n : Nat} {t : PyStr} {o e : PyPath}
    (ht : '/' ∉ t) (hu : t ≠ "..".toList) (h : workerFiles (some (some b)) cur n (some t) = .ok (some (o, e))) :
    ∃ r r', o = ⟨b.abs, b.parts ++ r⟩ ∧ e = ⟨b.abs, b.parts ++ r'⟩ ∧ "..".toList ∉ r ∧ "..".toList ∉ r' := by
  rw [files_eq] at h
  cases h
  have hd : ∃ r, dir b (some t) = ⟨b.abs, b.parts ++ r⟩ ∧ ∀ x ∈ r, x = t := by
    show ∃ r, PyPath.div b (.ofStr t) = _ ∧ _
    by_cases h1 : t = []
    · refine ⟨[], ?_, fun _ hx => by cases hx⟩
      rw [h1, show PyPath.ofStr [] = ⟨false, []⟩ by decide +kernel]
      simp [PyPath.div]
    · by_cases h2 : t = ['.']
      · refine ⟨[], ?_, fun _ hx => by cases hx⟩
        rw [h2, show PyPath.ofStr ['.'] = ⟨false, []⟩ by decide +kernel]
        simp [PyPath.div]
      · rw [ofStr_plain ht h1 h2]
        exact ⟨[t], by simp [PyPath.div], fun x hx => List.mem_singleton.1 hx⟩
  obtain ⟨r, hr, hr'⟩ := hd
  have hlen : ∀ s : PyStr, wname n ++ s ≠ "..".toList := by
    intro s hs
    have := wname_head n s
    rw [hs, show "..".toList = ['.', '.'] by decide +kernel] at this
    simp at this
  refine ⟨r ++ [wname n ++ ".out".toList], r ++ [wname n ++ ".err".toList], ?_, ?_, ?_, ?_⟩
  · rw [hr]; simp
  · rw [hr]; simp
  · intro hx
    rcases List.mem_append.1 hx with h3 | h3
    · exact hu (hr' _ h3).symm
    · exact hlen _ (List.mem_singleton.1 h3).symm
  · intro hx
    rcases List.mem_append.1 hx with h3 | h3
    · exact hu (hr' _ h3).symm
    · exact hlen _ (List.mem_singleton.1 h3).symm

/-- C74 is false: the log files of a task whose id starts with a slash are not in the log directory. -/
theorem C74_false_absolute : workerFiles (some (some (.ofStr "./daisy_logs".toList))) none 7 (some "/etc/x".toList) =
    .ok (some (⟨true, ["etc".toList, "x".toList, "worker_7.out".toList]⟩,
      ⟨true, ["etc".toList, "x".toList, "worker_7.err".toList]⟩)) := by decide +kernel

/-- C74 is false: a task id can lead out of the log directory. -/
theorem C74_false_up : workerFiles (some (some (.ofStr "./daisy_logs".toList))) none 7 (some "../x".toList) =
    .ok (some (⟨false, ["daisy_logs".toList, "..".toList, "x".toList, "worker_7.out".toList]⟩,
      ⟨false, ["daisy_logs".toList, "..".toList, "x".toList, "worker_7.err".toList]⟩)) := by decide +kernel

/-- C74: the log files named in the execution summary are those the worker wrote to, if there is a log directory and it
was not changed in between. -/
theorem C74_announced (b : PyPath) (cur : Option PyPath) (n : Nat) (t : PyStr) :
    ∃ o e, workerFiles (some (some b)) cur n (some t) = .ok (some (o, e)) ∧
      announced (some b) (pyStrNat n) t = (e.toStr, o.toStr) := by
  refine ⟨_, _, files_eq b cur n (some t), ?_⟩
  have join : ∀ (l : List PyStr) (x y : PyStr), pyJoin '/' (l ++ [x ++ y]) = pyJoin '/' (l ++ [x]) ++ y := by
    intro l x y
    induction l with
    | nil => rfl
    | cons w l ih =>
      cases l with
      | nil => simp [pyJoin]
      | cons w' l =>
        simp only [List.cons_append, pyJoin] at ih ⊢
        rw [ih]
        simp
  have str : ∀ (p : PyPath) (x y : PyStr), PyPath.toStr ⟨p.abs, p.parts ++ [x ++ y]⟩ =
      PyPath.toStr ⟨p.abs, p.parts ++ [x]⟩ ++ y := by
    intro p x y
    unfold PyPath.toStr
    dsimp only
    cases p.abs with
    | true => simp [join]
    | false => simp [join]
  unfold announced
  rw [basename_eq]
  exact Prod.ext (str _ _ _).symm (str _ _ _).symm

/-- A path as `Path(...)` makes it: no part is empty, `.`, or contains a slash. -/
private def Norm (p : PyPath) : Prop := ∀ w ∈ p.parts, '/' ∉ w ∧ w ≠ [] ∧ w ≠ ['.']

private theorem ofStr_norm (s : PyStr) : Norm (.ofStr s) := by
  intro w hw
  obtain ⟨h1, h2⟩ := List.mem_filter.1 hw
  have := of_decide_eq_true h2
  exact ⟨pySplit_words h1, this.1, this.2⟩

private theorem toStr_norm {p : PyPath} (h : Norm p) : PyPath.ofStr p.toStr = p := by
  obtain ⟨a, l⟩ := p
  have hl : ∀ w ∈ l, '/' ∉ w := fun w hw => (h w hw).1
  have hf : l.filter (fun w => w ≠ [] ∧ w ≠ ['.']) = l :=
    List.filter_eq_self.2 (fun w hw => by simpa using ⟨(h w hw).2.1, (h w hw).2.2⟩)
  cases l with
  | nil => cases a <;> decide +kernel
  | cons w l =>
    have hs := pySplit_join (by simp) hl
    cases a with
    | true =>
      have h0 : pySplit '/' ('/' :: pyJoin '/' (w :: l)) = [] :: (w :: l) := by
        rw [← List.nil_append ('/' :: _), pySplit_append _ (by simp), hs]
      simp only [PyPath.toStr, PyPath.ofStr, if_true, h0]
      rw [List.filter_cons]
      simpa using hf
    | false =>
      have hh : (pyJoin '/' (w :: l)).head? ≠ some '/' := by
        obtain ⟨h1, h2, _⟩ := h w List.mem_cons_self
        cases w with
        | nil => exact absurd rfl h2
        | cons c w =>
          have : c ≠ '/' := fun e => h1 (e ▸ List.mem_cons_self)
          cases l <;> simpa [pyJoin] using this
      simp only [PyPath.toStr, PyPath.ofStr, Bool.false_eq_true, if_false, hs, List.cons_ne_nil]
      congr 1
      simpa using hh

/-- C74: whoever opens the file named in the execution summary opens the file the worker wrote to. -/
theorem C74_announced_opens (d : PyStr) (cur : Option PyPath) (n : Nat) (t : PyStr) :
    ∃ o e, workerFiles (some (some (.ofStr d))) cur n (some t) = .ok (some (o, e)) ∧
      PyPath.ofStr (announced (some (.ofStr d)) (pyStrNat n) t).1 = e ∧
      PyPath.ofStr (announced (some (.ofStr d)) (pyStrNat n) t).2 = o := by
  obtain ⟨o, e, h1, h2⟩ := C74_announced (.ofStr d) cur n t
  refine ⟨o, e, h1, ?_⟩
  rw [h2]
  rw [files_eq] at h1
  cases h1
  have hd : Norm (dir (.ofStr d) (some t)) := by
    show Norm (PyPath.div _ _)
    unfold PyPath.div
    split_ifs
    · exact ofStr_norm t
    · intro w hw
      rcases List.mem_append.1 hw with h | h
      · exact ofStr_norm d w h
      · exact ofStr_norm t w h
  have key : ∀ s : PyStr, '/' ∉ s → Norm ⟨(dir (.ofStr d) (some t)).abs, (dir (.ofStr d) (some t)).parts ++ [wname n ++ s]⟩ := by
    intro s hs w hw
    rcases List.mem_append.1 hw with h | h
    · exact hd w h
    · rw [List.mem_singleton.1 h]
      have hw := wname_head n s
      refine ⟨fun hx => (List.mem_append.1 hx).elim (wname_plain n).1 hs, fun hc => ?_, fun hc => ?_⟩
      · rw [hc] at hw; cases hw
      · rw [hc] at hw; simp at hw
  exact ⟨toStr_norm (key _ (by decide)), toStr_norm (key _ (by decide))⟩

/-- C74: without a log directory, no file is written; the summary names `None.err` all the same. -/
theorem C74_announced_none (cur : Option PyPath) (n : Nat) (t : PyStr) :
    workerFiles (some none) cur n (some t) = .ok none ∧
    announced none (pyStrNat n) t = ("None.err".toList, "None.out".toList) := ⟨rfl, rfl⟩

example : workerFiles (some (some (.ofStr "./daisy_logs".toList))) none 12 (some "extract".toList) =
    .ok (some (⟨false, ["daisy_logs".toList, "extract".toList, "worker_12.out".toList]⟩,
      ⟨false, ["daisy_logs".toList, "extract".toList, "worker_12.err".toList]⟩)) ∧
    announced (some (.ofStr "./daisy_logs".toList)) (pyStrNat 12) "extract".toList =
      ("daisy_logs/extract/worker_12.err".toList, "daisy_logs/extract/worker_12.out".toList) := by decide +kernel

/-! ## C78 -/

/-- C78, partial.  The full claim (docstring of `redirect_stdouterr`: output goes to `<basename>.out` and
`<basename>.err`) is for all names and is false (`C78_false`): it holds if the last part of the name has no dot. -/
theorem C78_redirect_partial {abs : Bool} {d : List PyStr} {name : PyStr} (h : '.' ∉ name) :
    redirect (some ⟨abs, d ++ [name]⟩) =
      .ok (some (⟨abs, d ++ [name ++ ".out".toList]⟩, ⟨abs, d ++ [name ++ ".err".toList]⟩)) := by
  simp only [redirect, PyPath.withSuffix, List.getLast?_concat, List.dropLast_concat, stem_plain h]

/-- C78 is false: two different names, the same files; the second redirection overwrites the output of the first. -/
theorem C78_false : redirect (some (.ofStr "logs/run.1".toList)) = redirect (some (.ofStr "logs/run.2".toList)) ∧
    redirect (some (.ofStr "logs/run.1".toList)) =
      .ok (some (⟨false, ["logs".toList, "run.out".toList]⟩, ⟨false, ["logs".toList, "run.err".toList]⟩)) := by
  decide +kernel

example : redirect (some (.ofStr "logs/run_1".toList)) =
    .ok (some (⟨false, ["logs".toList, "run_1.out".toList]⟩, ⟨false, ["logs".toList, "run_1.err".toList]⟩)) := by
  decide +kernel

end Verif
