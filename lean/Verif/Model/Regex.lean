import Verif.Model.Py
/-
A small backtracking regular expression engine with the semantics of Python's `re`:
ordered alternatives, greedy repetition, leftmost match, non-overlapping `sub`.
Only what the patterns of `pathesc.py` need.
-/
namespace HS

/-- Regular expressions. -/
inductive Re
  /-- one character satisfying the class -/
  | cls (p : Nat → Bool)
  | eps
  | seq (a b : Re)
  /-- `a|b`, `a` preferred -/
  | alt (a b : Re)
  /-- `a*`, greedy -/
  | star (a : Re)
  /-- `^` -/
  | bos
  /-- `$`: at the end or just before a final newline -/
  | eos

namespace Re

/-- `c` literal. -/
def lit (c : Nat) : Re := cls (fun x => x == c)
/-- `a+`. -/
def plus (a : Re) : Re := seq a (star a)
/-- `a?` (greedy). -/
def opt (a : Re) : Re := alt a eps
/-- `a{n}`. -/
def rep (a : Re) : Nat → Re
  | 0 => eps
  | n + 1 => seq a (rep a n)
/-- `a{0,n}` (greedy). -/
def repUpTo (a : Re) : Nat → Re
  | 0 => eps
  | n + 1 => alt (seq a (repUpTo a n)) eps

/-- Matcher state: whether we are at the start of the subject string, and the remaining input. -/
abbrev St := Bool × Str

/-- Greedy iteration; an iteration that consumes nothing is not repeated (as in Python's `re`). -/
def starF (f : St → List St) : Nat → St → List St
  | 0, s => [s]
  | n + 1, s => ((f s).filter (fun t => decide (t.2.length < s.2.length))).flatMap (starF f n) ++ [s]

/-- All ways to match at the current position, in backtracking order; the first is Python's match. -/
def run : Re → St → List St
  | cls p, (_, []) => let _ := p; []
  | cls p, (_, c :: r) => if p c then [(false, r)] else []
  | eps, s => [s]
  | seq a b, s => (run a s).flatMap (run b)
  | alt a b, s => run a s ++ run b s
  | star a, s => starF (run a) (s.2.length + 1) s
  | bos, s => if s.1 then [s] else []
  | eos, s => if s.2 = [] ∨ s.2 = [10] then [s] else []

/-- `pattern.match(s)` anchored at the given state: remaining state after the match. -/
def matchAt (r : Re) (s : St) : Option St := (run r s).head?

/-- `pattern.search(s) is not None`, starting from a state. -/
def searchFrom (r : Re) : Bool → Str → Bool
  | b, [] => (matchAt r (b, [])).isSome
  | b, c :: s => (matchAt r (b, c :: s)).isSome || searchFrom r false s

/-- `pattern.search(s) is not None`. -/
def search (r : Re) (s : Str) : Bool := searchFrom r true s

/-- `pattern.sub(f, s)` for a pattern that never matches the empty string; `f` may raise.
The fuel is the length of the remaining input. -/
def subFrom (r : Re) (f : Str → Res Str) : Nat → St → Res Str
  | 0, _ => .ok []
  | _ + 1, (_, []) => .ok []
  | n + 1, (b, c :: s) =>
    match matchAt r (b, c :: s) with
    | some t =>
      if t.2.length < (c :: s).length then do
        let x ← f ((c :: s).take ((c :: s).length - t.2.length))
        let y ← subFrom r f n t
        .ok (x ++ y)
      else do
        let y ← subFrom r f n (false, s)
        .ok (c :: y)
    | none => do
      let y ← subFrom r f n (false, s)
      .ok (c :: y)

/-- `pattern.sub(f, s)`. -/
def sub (r : Re) (f : Str → Res Str) (s : Str) : Res Str := subFrom r f (s.length + 1) (true, s)

end Re
end HS
