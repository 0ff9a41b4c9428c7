import Verif.Model.StateIO
/-
Specification for C99: what reading a written state should give, and which states can be written.
-/
namespace NDSL.StateIO
variable {C T : Type}

/-- The value as read: a quantity with all of its array as its domain. -/
def whole : Val C T → Val C T
  | .qty q => .qty { q with origin := q.dims.map fun _ => 0, extent := q.dims.map fun d => (d.2 : Int) }
  | .time t => .time t

/-- The session that reads can make this quantity: the quantity is not the coordinate of a dimension, its units are
not among those that are decoded, its backend is known and its precision is that of the session. -/
structure Readable (X : Coder C T) (S : Session) (n : String) (q : Qty C) : Prop where
  no_coord : q.dims.map (·.1) ≠ [n]
  units : X.dec q.units = none
  backend : q.backend ∈ S.known
  bits : ∀ b, q.dtype = .float b → b = S.bits

/-- Dates are decoded to what was encoded. -/
def Coder.Lawful (X : Coder C T) : Prop :=
  ∀ t, ∃ f, X.dec (X.enc t).2 = some f ∧ X.asTime (f (X.enc t).1) = some t

/-- The states that can be written: a date by the name of `time`, everything else quantities which agree about the
sizes of dimensions, and no dimension with the name of an entry without dimensions. -/
structure Writable (s : State C T) : Prop where
  time : ∃ t, dictGet s "time" = some (.time t)
  rest : ∀ n v, (n, v) ∈ s → n ≠ "time" → ∃ q, v = .qty q
  sizes : ∀ n q m r k a b, (n, Val.qty q) ∈ s → (m, Val.qty r) ∈ s → n ≠ "time" → m ≠ "time" →
    (k, a) ∈ q.dims → (k, b) ∈ r.dims → a = b
  scalars : ∀ n q k a, (n, Val.qty q) ∈ s → n ≠ "time" → (k, a) ∈ q.dims →
    k ≠ "time" ∧ ∀ m r, (m, Val.qty r) ∈ s → m ≠ "time" → r.dims = [] → k ≠ m

/-- The text of a number. -/
def digits (n : Nat) : List Char := Nat.toDigits 10 n

/-- The text of a number that may be negative. -/
def intText (n : Int) : List Char := if n < 0 then '-' :: digits n.natAbs else digits n.natAbs

/-- A gap between numbers: a blank or (true) a tab, and more of them. -/
abbrev Gap := Bool × List Bool
def gapChar (tab : Bool) : Char := if tab then '\t' else ' '
def Gap.text (g : Gap) : List Char := gapChar g.1 :: g.2.map gapChar

/-- A line of numbers: a gap, a number, a gap, a number, and so on, and then a comment. -/
def numberLine : List (Gap × Int) → List Char → List Char
  | [], comment => comment ++ ['\n']
  | (g, n) :: l, comment => g.text ++ (intText n ++ numberLine l comment)

/-- The text `coupler.res`: the calendar, the time at the start, the current time, and anything else; with a comment
on each line, after at least a blank. -/
def couplerRes (cal : Gap × Int) (start now : List (Gap × Int)) (c1 c2 c3 rest : List Char) : List Char :=
  numberLine [cal] (' ' :: c1) ++ (numberLine start (' ' :: c2) ++ (numberLine now (' ' :: c3) ++ rest))

end NDSL.StateIO
