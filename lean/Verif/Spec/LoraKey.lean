/-
JSON arrays of natural numbers (RFC 8259, sections 2, 5 and 6, without fractions, exponents and minus signs): which text denotes which list.
-/
namespace Verif.Json

/-- insignificant white space -/
def isWs (c : Char) : Bool := c == ' ' || c == '\t' || c == '\n' || c == '\r'

/-- value of a digit -/
def digit (c : Char) : Nat := c.toNat - '0'.toNat

/-- value of decimal digits -/
def value (d : List Char) : Nat := d.foldl (fun n c => 10 * n + digit c) 0

/-- a number: decimal digits, without leading zeros -/
structure Number (d : List Char) (n : Nat) : Prop where
  digits : ∀ c ∈ d, c.isDigit = true
  nonempty : d ≠ []
  noZeros : d.head? = some '0' → d = ['0']
  value : Json.value d = n

/-- numbers with commas between them -/
inductive Elements : List Char → List Nat → Prop
  | one {a d b : List Char} {n : Nat} : (∀ c ∈ a, isWs c = true) → Number d n → (∀ c ∈ b, isWs c = true) → Elements (a ++ d ++ b) [n]
  | more {a d b t : List Char} {n : Nat} {ns : List Nat} : (∀ c ∈ a, isWs c = true) → Number d n → (∀ c ∈ b, isWs c = true) → Elements t ns → Elements (a ++ d ++ b ++ ',' :: t) (n :: ns)

/-- an array -/
inductive Arr : List Char → List Nat → Prop
  | empty {a : List Char} : (∀ c ∈ a, isWs c = true) → Arr ('[' :: a ++ [']']) []
  | full {t : List Char} {ns : List Nat} : Elements t ns → Arr ('[' :: t ++ [']']) ns

end Verif.Json
