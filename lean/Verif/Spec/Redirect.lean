import Verif.Model.Redirect

/-! # What redirecting the output of a process should do -/

namespace Verif.Spec

/-- Everything printed on `stdout` arrives in order in one opening of the file `fo`, everything printed on `stderr` in one
opening of `fe`, whichever way it is printed; nothing else arrives there. -/
def Redirected (io : Io) (fo fe : PyPath) : Prop :=
  ∃ o e : Desc, o.file = some fo ∧ e.file = some fe ∧ o ≠ e ∧
    ∀ ps : List Print, io.written ps o = (ps.filter (fun p => p.err = false)).map (·.text) ∧
      io.written ps e = (ps.filter (fun p => p.err = true)).map (·.text)

/-- A usual process: `sys.__stdout__` and `sys.__stderr__` are there and use the open descriptors 1 and 2, and if
`sys.stdout` and `sys.stderr` are other file objects, these use other descriptors. -/
structure Usual (io : Io) : Prop where
  out0 : io.out0 = some 1
  err0 : io.err0 = some 2
  open1 : Io.look io.table 1 ≠ none
  open2 : Io.look io.table 2 ≠ none
  out : ∀ fd, io.out = some fd → fd ≠ 1 ∧ fd ≠ 2 ∧ Io.look io.table fd ≠ none
  err : ∀ fd, io.err = some fd → fd ≠ 1 ∧ fd ≠ 2 ∧ Io.look io.table fd ≠ none
  apart : ∀ fd, io.out = some fd → io.err ≠ some fd

end Verif.Spec
