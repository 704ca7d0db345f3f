import Verif.Spec.Redirect

/-! # C107: the output of a worker goes to its log files -/

namespace Verif

open Spec

namespace Io

theorem look_put (l : List (Option Desc)) (fd m : Nat) (x : Option Desc) :
    look (put l fd x) m = if m = fd then x else look l m := by
  unfold look put
  by_cases h : fd < l.length
  · rw [if_pos h, List.getElem?_set]
    by_cases hm : fd = m
    · subst hm; simp [h]
    · rw [if_neg hm, if_neg (fun e => hm e.symm)]
  · rw [if_neg h]
    by_cases h1 : m < l.length
    · rw [List.append_assoc, List.getElem?_append_left h1, if_neg (by omega)]
    · have h1' : l[m]? = none := List.getElem?_eq_none (by omega)
      rw [h1', List.append_assoc, List.getElem?_append_right (by omega)]
      by_cases h2 : m < fd
      · rw [List.getElem?_append_left (by simp; omega), List.getElem?_replicate, if_pos (by omega), if_neg (by omega)]
      · rw [List.getElem?_append_right (by simp; omega), List.length_replicate]
        by_cases h3 : m = fd
        · subst h3; simp
        · rw [if_neg h3, List.getElem?_eq_none (by simp; omega)]

theorem look_lowest (l : List (Option Desc)) : look l (lowest l) = none := by
  unfold look lowest
  by_cases h : List.findIdx (fun x : Option Desc => x.isNone) l < l.length
  · rw [List.getElem?_eq_getElem h]
    have := List.findIdx_getElem (w := h)
    exact Option.isNone_iff_eq_none.1 this
  · rw [List.getElem?_eq_none (by omega)]

/-- What `_file_reopen` does if the descriptor is open. -/
theorem fileReopen_ok {canOpen : PyPath → Bool} {f : PyPath} {t : Nat} {io : Io} (hc : canOpen f = true)
    (ht : look io.table t ≠ none) :
    ∃ fd tb, fileReopen canOpen f (some t) io = .ok (fd, { io with table := tb, next := io.next + 1 }) ∧
      look io.table fd = none ∧
      ∀ m, look tb m = if m = fd ∨ m = t then some ⟨io.next, some f⟩ else look io.table m := by
  have hl := look_lowest io.table
  have hne : t ≠ lowest io.table := fun e => ht (e ▸ hl)
  unfold fileReopen openFile
  rw [if_pos hc]
  dsimp only
  unfold close
  have h1 : look (put io.table (lowest io.table) (some ⟨io.next, some f⟩)) t = look io.table t := by
    rw [look_put, if_neg hne]
  rw [if_pos (by dsimp only; rw [h1]; exact Option.isSome_iff_ne_none.2 ht)]
  dsimp only
  unfold dup2
  have h2 : look (put (put io.table (lowest io.table) (some ⟨io.next, some f⟩)) t none) (lowest io.table) =
      some ⟨io.next, some f⟩ := by
    rw [look_put, if_neg (fun e => hne e.symm), look_put, if_pos rfl]
  dsimp only
  rw [h2]
  refine ⟨_, _, rfl, hl, ?_⟩
  intro m
  rw [look_put, look_put, look_put]
  by_cases h3 : m = t
  · simp [h3]
  · by_cases h4 : m = lowest io.table <;> simp [h3, h4]

/-- It raises if the descriptor is not open. -/
theorem fileReopen_closed {canOpen : PyPath → Bool} {f : PyPath} {o : Option Nat} {io : Io}
    (ho : ∀ t, o = some t → look io.table t = none) (r : Nat × Io) : fileReopen canOpen f o io ≠ .ok r := by
  intro h
  unfold fileReopen openFile at h
  by_cases hc : canOpen f = true
  · rw [if_pos hc] at h
    dsimp only at h
    cases o with
    | none => cases h
    | some t =>
      dsimp only at h
      have ht := ho t rfl
      unfold close at h
      dsimp only at h
      rw [look_put] at h
      by_cases e : t = lowest io.table
      · rw [if_pos e, Option.isSome_some, if_pos rfl] at h
        dsimp only at h
        unfold dup2 at h
        dsimp only at h
        rw [look_put, if_pos e.symm] at h
        cases h
      · rw [if_neg e, ht] at h
        cases h
  · rw [if_neg hc] at h
    cases h

end Io

namespace Props

open Io

/-- C107, in a usual process: if the directory can be made and the files can be opened, `redirect_stdouterr` succeeds, and
then all that is printed arrives in the two files, whichever way it is printed; the process is still a usual one (so that
this can be repeated), no other descriptor changes, except that the files of an earlier call are closed.
The full claim is that the output is redirected whenever the call returns, see `C107_statement`. -/
theorem C107_redirect_partial {mkdir canOpen : PyPath → Bool} {b fo fe : PyPath} {io : Io} (h : Usual io)
    (hm : mkdir b = true) (ho : b.withSuffix ".out".toList = .ok fo) (he : b.withSuffix ".err".toList = .ok fe)
    (hco : canOpen fo = true) (hce : canOpen fe = true) :
    ∃ io', redirect mkdir canOpen (some b) io = .ok io' ∧ Redirected io' fo fe ∧ Usual io' ∧
      ∀ fd, fd ≠ 1 → fd ≠ 2 → io'.out ≠ some fd → io'.err ≠ some fd →
        look io'.table fd = if io.out = some fd ∨ io.err = some fd then none else look io.table fd := by
  obtain ⟨fd, tb, h1, h2, h3⟩ := fileReopen_ok hco h.open1
  have hfd1 : fd ≠ 1 := fun e => h.open1 (e ▸ h2)
  have hfd2 : fd ≠ 2 := fun e => h.open2 (e ▸ h2)
  -- after `sys.stdout = ...`
  obtain ⟨tb2, ht2, hl2⟩ : ∃ tb2, setOut fd { io with table := tb, next := io.next + 1 } =
      { io with table := tb2, next := io.next + 1, out := some fd } ∧
      ∀ m, look tb2 m = if m = fd ∨ m = 1 then some ⟨io.next, some fo⟩ else
        if io.out = some m then none else look io.table m := by
    unfold setOut
    cases hout : io.out with
    | none => exact ⟨tb, rfl, fun m => by rw [h3]; simp⟩
    | some f =>
      obtain ⟨a1, a2, a3⟩ := h.out f hout
      have hf : f ≠ fd := fun e => a3 (e ▸ h2)
      refine ⟨put tb f none, rfl, fun m => ?_⟩
      rw [look_put, h3]
      by_cases e : m = f
      · subst e
        simp [hf, a1]
      · have e' : ¬ f = m := fun x => e x.symm
        simp [e, e']
  have hopen2 : look tb2 2 ≠ none := by
    rw [hl2, if_neg (by omega), if_neg]
    · exact h.open2
    · intro e
      exact (h.out 2 e).2.1 rfl
  obtain ⟨fd', tb3, g1, g2, g3⟩ := fileReopen_ok (io := { io with table := tb2, next := io.next + 1, out := some fd })
    hce hopen2
  dsimp only at g1 g2 g3
  have hfe2 : fd' ≠ 2 := fun e => hopen2 (e ▸ g2)
  have hfe1 : fd' ≠ 1 := by
    intro e
    rw [e, hl2, if_pos (Or.inr rfl)] at g2
    cases g2
  have hfe : fd' ≠ fd := by
    intro e
    rw [e, hl2, if_pos (Or.inl rfl)] at g2
    cases g2
  obtain ⟨tb4, ht4, hl4⟩ : ∃ tb4, setErr fd' { io with table := tb3, next := io.next + 1 + 1, out := some fd } = { io with table := tb4, next := io.next + 1 + 1, out := some fd, err := some fd' } ∧
      ∀ m, look tb4 m = if m = fd' ∨ m = 2 then some ⟨io.next + 1, some fe⟩ else
        if m = fd ∨ m = 1 then some ⟨io.next, some fo⟩ else
        if io.out = some m ∨ io.err = some m then none else look io.table m := by
    unfold setErr
    cases herr : io.err with
    | none => exact ⟨tb3, rfl, fun m => by rw [g3, hl2]; simp⟩
    | some f =>
      obtain ⟨a1, a2, a3⟩ := h.err f herr
      have hf : f ≠ fd := fun e => a3 (e ▸ h2)
      have hf' : f ≠ fd' := by
        intro e
        rw [← e, hl2, if_neg (fun x => x.elim hf a1), if_neg] at g2
        · exact a3 g2
        · intro x
          exact h.apart f x herr
      refine ⟨put tb3 f none, rfl, fun m => ?_⟩
      rw [look_put, g3, hl2]
      by_cases e : m = f
      · subst e
        simp [hf, hf', a1, a2]
      · have e' : ¬ f = m := fun x => e x.symm
        simp [e, e']
  refine ⟨{ io with table := tb4, next := io.next + 1 + 1, out := some fd, err := some fd' }, ?_, ?_, ?_, ?_⟩
  · unfold redirect
    dsimp only
    rw [hm, ho, h.out0]
    simp only [Bool.not_true, Bool.false_eq_true, if_false, h1, he, ht2]
    rw [h.err0] at g1 ht4 ⊢
    rw [g1]
    dsimp only
    rw [ht4, h.out0]
  · refine ⟨⟨io.next, some fo⟩, ⟨io.next + 1, some fe⟩, rfl, rfl, fun e => ?_, fun ps => ?_⟩
    · have := congrArg Desc.id e
      simp at this
    · have hd : ∀ p : Print, descOf { io with table := tb4, next := io.next + 1 + 1, out := some fd, err := some fd' } p =
          if p.err then some ⟨io.next + 1, some fe⟩ else some ⟨io.next, some fo⟩ := by
        intro p
        have l1 : look tb4 1 = some ⟨io.next, some fo⟩ := by
          rw [hl4, if_neg (by omega), if_pos (Or.inr rfl)]
        have l2 : look tb4 2 = some ⟨io.next + 1, some fe⟩ := by rw [hl4, if_pos (Or.inr rfl)]
        have l3 : look tb4 fd = some ⟨io.next, some fo⟩ := by
          rw [hl4, if_neg (by omega), if_pos (Or.inl rfl)]
        have l4 : look tb4 fd' = some ⟨io.next + 1, some fe⟩ := by rw [hl4, if_pos (Or.inl rfl)]
        unfold descOf fdOf
        cases p.py <;> cases p.err <;> simp [l1, l2, l3, l4]
      unfold written
      constructor <;>
      · congr 1
        apply List.filter_congr
        intro p _
        rw [hd]
        cases p.err <;> simp
  · refine ⟨h.out0, h.err0, ?_, ?_, ?_, ?_, ?_⟩
    · dsimp only
      rw [hl4, if_neg (by omega), if_pos (Or.inr rfl)]
      simp
    · dsimp only
      rw [hl4, if_pos (Or.inr rfl)]
      simp
    · intro f e
      cases e
      refine ⟨hfd1, hfd2, ?_⟩
      dsimp only
      rw [hl4, if_neg (by omega), if_pos (Or.inl rfl)]
      simp
    · intro f e
      cases e
      refine ⟨hfe1, hfe2, ?_⟩
      dsimp only
      rw [hl4, if_pos (Or.inl rfl)]
      simp
    · intro f e e'
      cases e
      cases e'
      exact hfe rfl
  · intro m m1 m2 m3 m4
    dsimp only at m3 m4 ⊢
    rw [hl4, if_neg (fun x => x.elim (fun e => m4 (e ▸ rfl)) m2), if_neg (fun x => x.elim (fun e => m3 (e ▸ rfl)) m1)]

/-- C107: in a usual process the call raises exactly if the directory cannot be made, the name has no last part, or one of
the two files cannot be opened. -/
theorem C107_returns_iff {mkdir canOpen : PyPath → Bool} {b : PyPath} {io : Io} (h : Usual io) :
    (∃ io', redirect mkdir canOpen (some b) io = .ok io') ↔
      mkdir b = true ∧ ∃ fo fe, b.withSuffix ".out".toList = .ok fo ∧ b.withSuffix ".err".toList = .ok fe ∧
        canOpen fo = true ∧ canOpen fe = true := by
  constructor
  · rintro ⟨io', hr⟩
    unfold redirect at hr
    dsimp only at hr
    cases hm : mkdir b with
    | false => rw [hm] at hr; cases hr
    | true =>
      refine ⟨rfl, ?_⟩
      rw [hm] at hr
      simp only [Bool.not_true, Bool.false_eq_true, if_false] at hr
      cases ho : b.withSuffix ".out".toList with
      | error e => rw [ho] at hr; cases hr
      | ok fo =>
        rw [ho] at hr
        dsimp only at hr
        have hcan : ∀ (f : PyPath) (t : Option Nat) (i : Io) r, fileReopen canOpen f t i = .ok r → canOpen f = true := by
          intro f t i r e
          unfold fileReopen openFile at e
          by_cases hc : canOpen f = true
          · exact hc
          · rw [if_neg hc] at e
            cases e
        cases h1 : fileReopen canOpen fo io.out0 io with
        | error e => rw [h1] at hr; cases hr
        | ok r =>
          obtain ⟨fd, io1⟩ := r
          rw [h1] at hr
          dsimp only at hr
          cases he : b.withSuffix ".err".toList with
          | error e => rw [he] at hr; cases hr
          | ok fe =>
            rw [he] at hr
            dsimp only at hr
            refine ⟨fo, fe, rfl, rfl, hcan _ _ _ _ h1, ?_⟩
            revert hr
            generalize hx : fileReopen canOpen fe _ _ = y
            intro hr
            cases y with
            | error e => cases hr
            | ok r => exact hcan _ _ _ _ hx
  · rintro ⟨hm, fo, fe, ho, he, hco, hce⟩
    obtain ⟨io', h1, _⟩ := C107_redirect_partial h hm ho he hco hce
    exact ⟨io', h1⟩

/-- C107: a worker process of a program that was started without `stdout` (Python then sets `sys.__stdout__` to `None`), or
whose descriptor was closed, does not call its spawn function; it ends with code 0 and reports an exception, which
`C68_report_raises_partial` says makes the server raise.  This is so whatever the log directory is, unless there is none. -/
theorem C107_no_stdout {mkdir canOpen : PyPath → Bool} {b : PyPath} {io : Io}
    (h : ∀ fd, io.out0 = some fd → look io.table fd = none) (arg : Int) (raised : Option ClientErr) :
    (∀ io', redirect mkdir canOpen (some b) io ≠ .ok io') ∧
    (spawnProcess mkdir canOpen (some b) io arg raised).1 = none ∧
    (spawnProcess mkdir canOpen (some b) io arg raised).2.code = 0 ∧
    (spawnProcess mkdir canOpen (some b) io arg raised).2.reported ≠ none := by
  have key : ∀ io', redirect mkdir canOpen (some b) io ≠ .ok io' := by
    intro io' hr
    unfold redirect at hr
    dsimp only at hr
    cases hm : mkdir b with
    | false => rw [hm] at hr; cases hr
    | true =>
      rw [hm] at hr
      simp only [Bool.not_true, Bool.false_eq_true, if_false] at hr
      cases ho : b.withSuffix ".out".toList with
      | error e => rw [ho] at hr; cases hr
      | ok fo =>
        rw [ho] at hr
        dsimp only at hr
        cases h1 : fileReopen canOpen fo io.out0 io with
        | error e => rw [h1] at hr; cases hr
        | ok r => exact fileReopen_closed h r h1
  refine ⟨key, ?_⟩
  unfold spawnProcess
  cases hr : redirect mkdir canOpen (some b) io with
  | ok io' => exact absurd hr (key io')
  | error e =>
    dsimp only
    have hx : e.toClient.isException = true := by cases e <;> rfl
    unfold spawnWrapper
    dsimp only
    rw [if_pos hx]
    exact ⟨rfl, rfl, by simp⟩

/-- C107: without a log directory nothing is changed, and the spawn function is called in any case. -/
theorem C107_no_logdir {mkdir canOpen : PyPath → Bool} (io : Io) (arg : Int) (raised : Option ClientErr) :
    spawnProcess mkdir canOpen none io arg raised = (some io, spawnWrapper arg raised) := rfl

/-- C107 in full. -/
def C107_statement : Prop :=
  ∀ (mkdir canOpen : PyPath → Bool) (b fo fe : PyPath) (io io' : Io), b.withSuffix ".out".toList = .ok fo →
    b.withSuffix ".err".toList = .ok fe → redirect mkdir canOpen (some b) io = .ok io' → Redirected io' fo fe

namespace Ex.Redirect

/-- A process with a terminal. -/
def plain : Io := ⟨[some ⟨0, none⟩, some ⟨1, none⟩, some ⟨2, none⟩], 3, some 1, some 2, none, none⟩

/-- The same after `sys.stdout = os.fdopen(1, "w", 1)`, a usual way to get line buffering. -/
def unbuffered : Io := { plain with out := some 1 }

/-- The same after `os.close(2)`. -/
def closed : Io := { plain with table := [some ⟨0, none⟩, some ⟨1, none⟩] }

/-- The log files of a worker. -/
def base : PyPath := ⟨false, ["logs".toList, "worker_0".toList]⟩

/-- The usual process is one. -/
theorem plain_usual : Usual plain :=
  ⟨rfl, rfl, by decide, by decide, (by intro fd h; cases h), (by intro fd h; cases h), (by intro fd h; cases h)⟩

example : ∃ io', redirect (fun _ => true) (fun _ => true) (some base) plain = .ok io' ∧
    Redirected io' ⟨false, ["logs".toList, "worker_0.out".toList]⟩ ⟨false, ["logs".toList, "worker_0.err".toList]⟩ ∧
    Usual io' := by
  obtain ⟨io', h1, h2, h3, _⟩ := C107_redirect_partial (fo := ⟨false, ["logs".toList, "worker_0.out".toList]⟩)
    (fe := ⟨false, ["logs".toList, "worker_0.err".toList]⟩) (mkdir := fun _ => true) (canOpen := fun _ => true)
    plain_usual rfl (b := base) (by decide +kernel) (by decide +kernel) rfl rfl
  exact ⟨io', h1, h2, h3⟩

end Ex.Redirect

open Ex.Redirect in
/-- C107 is false: after `sys.stdout = os.fdopen(1, "w", 1)` the old `sys.stdout` is closed when the new one is assigned,
and its descriptor 1 with it; the file for `stderr` then gets the descriptor 1, and what child processes print on `stdout`
goes to `worker_0.err`. -/
theorem C107_false : ¬ C107_statement := by
  intro hC
  have h1 : (redirect (fun _ => true) (fun _ => true) (some base) unbuffered).toOption.map (fun io' =>
      decide (io'.descOf ⟨false, true, []⟩ = some ⟨3, some ⟨false, ["logs".toList, "worker_0.out".toList]⟩⟩ ∧
        io'.descOf ⟨false, false, []⟩ = some ⟨4, some ⟨false, ["logs".toList, "worker_0.err".toList]⟩⟩)) = some true := by
    decide +kernel
  cases hr : redirect (fun _ => true) (fun _ => true) (some base) unbuffered with
  | error e => rw [hr] at h1; cases h1
  | ok io' =>
    rw [hr] at h1
    obtain ⟨d1, d2⟩ := of_decide_eq_true (Option.some.inj h1)
    obtain ⟨o, e, _, _, _, hp⟩ := hC _ _ base ⟨false, ["logs".toList, "worker_0.out".toList]⟩
      ⟨false, ["logs".toList, "worker_0.err".toList]⟩ unbuffered io' (by decide +kernel) (by decide +kernel) hr
    have a := (hp [⟨false, true, []⟩]).1
    have b := (hp [⟨false, false, []⟩]).1
    unfold written at a b
    rw [List.filter_cons, List.filter_nil] at a b
    have ea : io'.descOf ⟨false, true, []⟩ = some o := by
      by_contra hne
      rw [if_neg (by simpa using hne)] at a
      simp at a
    have eb : io'.descOf ⟨false, false, []⟩ = some o := by
      by_contra hne
      rw [if_neg (by simpa using hne)] at b
      simp at b
    rw [d1] at ea
    rw [d2, ← ea] at eb
    revert eb
    decide

open Ex.Redirect in
/-- C107 is also false if the descriptor 2 was closed: the file for `stdout` gets it, and what Python code prints on
`stdout` goes to `worker_0.err`. -/
theorem C107_false_closed : (redirect (fun _ => true) (fun _ => true) (some base) closed).toOption.map (fun io' =>
    (io'.descOf ⟨false, true, []⟩).map (·.file)) =
      some (some (some ⟨false, ["logs".toList, "worker_0.err".toList]⟩)) := by
  decide +kernel

open Ex.Redirect in
example : (spawnProcess (fun _ => true) (fun _ => true) (some base) { plain with out0 := none } 0 none).1 = none :=
  (C107_no_stdout (by intro fd h; cases h) 0 none).2.1

end Props
end Verif
