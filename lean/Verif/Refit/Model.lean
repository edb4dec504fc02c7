import Verif.Basic
import Mathlib.Tactic.Common

/-!
# The question for a further fit: the program

gtlike fits, reports, and with `refit=yes` asks "Refit? [y]", src/likelihood/likelihood.cxx:273-312
and 967-975.  The standard input is the list of characters still to come with the flags of the
stream.  One turn of the loop (reading the model, fit, results) is an arbitrary function on an
arbitrary state; what it does is the subject of C108.
-/

namespace Verif.Refit

/-- `std::cin`: characters to come (after them the input ends) and `eofbit`, `failbit`. -/
structure In where
  chars : List Char
  eof : Bool
  fail : Bool
deriving DecidableEq

/-- The extraction of `istream::getline(s, 2)` from a stream in good state: the conditions are
tested in the order end of input, delimiter, one character stored (C++ standard,
[istream.unformatted]). -/
def extract (s : In) : List Char × In :=
  match s.chars with
  | [] => ([], { s with eof := true, fail := true })
  | c :: r =>
    if c = '\n' then ([], { s with chars := r })
    else
      match r with
      | [] => ([c], { s with chars := [], eof := true })
      | d :: r' =>
        if d = '\n' then ([c], { s with chars := r' })
        else ([c], { s with chars := d :: r', fail := true })

/-- `std::cin.getline(answer, 2)`: on a stream that is not good nothing is read, `failbit` is set
and the empty string is stored. -/
def getline (s : In) : List Char × In :=
  if s.eof || s.fail then ([], { s with fail := true }) else extract s

/-- `prompt`, likelihood.cxx:967-975. -/
def prompt (s : In) : Bool × In :=
  let r := getline s
  if r.1 = ['y'] || r.1 = [] then (true, r.2) else (false, r.2)

/-- What is known after a number of turns: the loop has ended, or it goes on. -/
inductive Loop (σ : Type) where
  /-- ended, with the final state, the input left and the number of turns -/
  | done (s : σ) (i : In) (turns : ℕ)
  /-- still running -/
  | running (s : σ) (i : In)

variable {σ : Type}

/-- The fit loop, likelihood.cxx:277-312: what is the case after at most `n` turns, of which
`k` were made before. -/
def fitLoop (query : Bool) (turn : σ → σ) : ℕ → ℕ → σ → In → Loop σ
  | 0, _, s, i => .running s i
  | n + 1, k, s, i =>
    let s' := turn s
    if query then
      let a := prompt i
      if a.1 then fitLoop query turn n (k + 1) s' a.2 else .done s' a.2 (k + 1)
    else .done s' i (k + 1)

/-- The standard input at the start. -/
def input (chars : List Char) : In := ⟨chars, false, false⟩

end Verif.Refit
