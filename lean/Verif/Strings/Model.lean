/-
Model of /repo/blueprint/pkg/blueprint/stringutil/{name,indent}.go and /repo/plugins/linux/util.go.
Strings are lists of Unicode characters; invalid UTF-8 is not modelled.
-/
namespace Verif.Strings

/-- The characters that the regular expression `[^a-zA-Z0-9 ]+` does not match (name.go line 16). Note
the space. -/
def isLower (c : Char) : Bool := 'a'.toNat ≤ c.toNat && c.toNat ≤ 'z'.toNat
def isUpper (c : Char) : Bool := 'A'.toNat ≤ c.toNat && c.toNat ≤ 'Z'.toNat
def isDigit (c : Char) : Bool := '0'.toNat ≤ c.toNat && c.toNat ≤ '9'.toNat
def kept (c : Char) : Bool := isLower c || isUpper c || isDigit c || c == ' '

/-- `r.ReplaceAllString(name, "_")` (name.go line 25): every maximal run of other characters becomes one
underscore.  The flag says that the previous character belongs to such a run. -/
def collapse : Bool → List Char → List Char
  | _, [] => []
  | inRun, c :: cs =>
    if kept c then c :: collapse false cs
    else if inRun then collapse true cs
    else '_' :: collapse true cs

/-- The loop of `CleanName` (name.go lines 26-32): removes characters while `Atoi` accepts the first one. -/
def stripDigits : List Char → List Char
  | [] => []
  | c :: cs => if isDigit c then stripDigits cs else c :: cs

/-- `CleanName` (name.go lines 24-34; `ir.CleanName` in ir/irutil.go line 16 is the same function). -/
def cleanName (s : List Char) : List Char := stripDigits (collapse false s)

/-- `strings.ToUpper` and `strings.ToLower` on ASCII characters.  Simplification: other characters are
left alone; clean names contain none. -/
def upper (c : Char) : Char := if isLower c then Char.ofNat (c.toNat - 32) else c
def lower (c : Char) : Char := if isUpper c then Char.ofNat (c.toNat + 32) else c

/-- `EnvVar` and `FuncName` (plugins/linux/util.go lines 17-26). -/
def envVar (s : List Char) : List Char := (cleanName s).map upper
def funcName (s : List Char) : List Char := (cleanName s).map lower

/-- `strings.Split(s, "\n")`. -/
def split : List Char → List (List Char)
  | [] => [[]]
  | c :: cs =>
    if c = '\n' then [] :: split cs
    else
      match split cs with
      | l :: ls => (c :: l) :: ls
      | [] => [[c]]

/-- `strings.Join(lines, "\n")`. -/
def join : List (List Char) → List Char
  | [] => []
  | [l] => l
  | l :: ls => l ++ '\n' :: join ls

/-- `strings.Repeat(" ", n)`; a negative amount panics in Go and is not modelled. -/
def spaces (n : Nat) : List Char := List.replicate n ' '

/-- `Indent` (indent.go lines 12-18). -/
def indent (s : List Char) (n : Nat) : List Char := join ((split s).map (spaces n ++ ·))

/-- `unicode.IsSpace`, as used by `strings.TrimSpace`. -/
def isSpace (c : Char) : Bool :=
  let n := c.toNat
  (9 ≤ n && n ≤ 13) || n == 32 || n == 0x85 || n == 0xA0 || n == 0x1680 || (0x2000 ≤ n && n ≤ 0x200a) ||
  n == 0x2028 || n == 0x2029 || n == 0x202f || n == 0x205f || n == 0x3000

/-- `strings.TrimSpace(line) == ""`. -/
def blank (line : List Char) : Bool := line.all isSpace

/-- `strings.Replace(line, "\t", "    ", -1)`. -/
def expandTabs : List Char → List Char
  | [] => []
  | c :: cs => if c = '\t' then ' ' :: ' ' :: ' ' :: ' ' :: expandTabs cs else c :: expandTabs cs

/-- First loop of `Reindent` (indent.go lines 25-31). -/
def normalize (line : List Char) : List Char := if blank line then [] else expandTabs line

/-- `len(line) - len(strings.TrimLeft(line, " "))`. -/
def indentOf (line : List Char) : Nat := (line.takeWhile (· == ' ')).length

/-- Second loop of `Reindent` (lines 33-41). -/
def minIndent : Nat → List (List Char) → Nat
  | cur, [] => cur
  | cur, l :: ls =>
    if 0 < l.length then
      if indentOf l < cur then minIndent (indentOf l) ls else minIndent cur ls
    else minIndent cur ls

/-- `Reindent` (indent.go lines 23-51).  `splits[i][currentIndent:]` cannot panic: no line is shorter
than the smallest indentation. -/
def reindentFrom (limit : Nat) (s : List Char) (n : Nat) : List Char :=
  let lines := (split s).map normalize
  let cur := minIndent limit lines
  join (lines.map fun l => if 0 < l.length then spaces n ++ l.drop cur else l)

/-- `currentIndent` starts at 10000 (line 33). -/
def reindent (s : List Char) (n : Nat) : List Char := reindentFrom 10000 s n

/-- `Capitalize` (name.go lines 11-14), `none` for the panic on the empty string.  Simplification:
upper-casing of ASCII letters only. -/
def capitalize : List Char → Option (List Char)
  | [] => none
  | c :: cs => some (upper c :: cs)

end Verif.Strings
