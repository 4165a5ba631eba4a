/-
Vocabulary for C23 and C24.
-/
namespace Verif.Strings

/-- The letters of the English alphabet and the ten digits. -/
def lowers : List Char := ['a', 'b', 'c', 'd', 'e', 'f', 'g', 'h', 'i', 'j', 'k', 'l', 'm', 'n', 'o', 'p', 'q', 'r',
  's', 't', 'u', 'v', 'w', 'x', 'y', 'z']
def uppers : List Char := ['A', 'B', 'C', 'D', 'E', 'F', 'G', 'H', 'I', 'J', 'K', 'L', 'M', 'N', 'O', 'P', 'Q', 'R',
  'S', 'T', 'U', 'V', 'W', 'X', 'Y', 'Z']
def digits : List Char := ['0', '1', '2', '3', '4', '5', '6', '7', '8', '9']

/-- Letters and digits. -/
def alnum (c : Char) : Bool := decide (c ∈ lowers ∨ c ∈ uppers ∨ c ∈ digits)

/-- Letters, digits and underscore. -/
def IdentChar (c : Char) : Prop := alnum c = true ∨ c = '_'

/-- The result of replacing every maximal run of characters other than letters, digits and spaces by one
underscore. -/
inductive Collapsed : List Char → List Char → Prop
  | nil : Collapsed [] []
  | keep (c s t) : (alnum c = true ∨ c = ' ') → Collapsed s t → Collapsed (c :: s) (c :: t)
  | run (r s t) : r ≠ [] → (∀ c ∈ r, ¬ (alnum c = true ∨ c = ' ')) →
      (∀ c, s.head? = some c → alnum c = true ∨ c = ' ') → Collapsed s t → Collapsed (r ++ s) ('_' :: t)

/-- A letter's other form: the character at the same place of the other alphabet; other characters stay. -/
def toCapital (c : Char) : Char := ((lowers.zip uppers).lookup c).getD c
def toSmall (c : Char) : Char := ((uppers.zip lowers).lookup c).getD c

/-- Unicode's white space. -/
def whiteSpace : List Char := ['\t', '\n', '\x0b', '\x0c', '\r', ' ',
  '\u0085', '\u00a0', '\u1680', '\u2000', '\u2001', '\u2002', '\u2003', '\u2004', '\u2005',
  '\u2006', '\u2007', '\u2008', '\u2009', '\u200a', '\u2028', '\u2029', '\u202f', '\u205f', '\u3000']

/-- A line with nothing but white space. -/
def Blank (l : List Char) : Prop := ∀ c ∈ l, c ∈ whiteSpace

/-- A line with its tabs written as four spaces each. -/
def detab (l : List Char) : List Char := l.flatMap fun c => if c = '\t' then [' ', ' ', ' ', ' '] else [c]

/-- The first character of a text is not a space. -/
def startsNonSpace (l : List Char) : Prop := ∃ c r, l = c :: r ∧ c ≠ ' '

end Verif.Strings
