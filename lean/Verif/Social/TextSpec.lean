import Verif.Social.Text
/-
What is a mention, and what is a link.
-/
namespace Verif.Social.Text

def letters : List Char := "abcdefghijklmnopqrstuvwxyzABCDEFGHIJKLMNOPQRSTUVWXYZ".toList
def figures : List Char := "0123456789".toList

/-- The name of a user that is mentioned in a text: after an @ sign, as long as possible. -/
def MentionedIn (name text : List Char) : Prop :=
  ∃ before after, text = before ++ '@' :: (name ++ after) ∧ name ≠ [] ∧ (∀ c ∈ name, c ∈ letters ++ figures ++ ['-', '_']) ∧
    ∀ c, after.head? = some c → c ∉ letters ++ figures ++ ['-', '_']

/-- http:// or https:// and a host. -/
def IsUrl (u : List Char) : Prop :=
  ∃ scheme host, u = scheme ++ host ∧ (scheme = "http://".toList ∨ scheme = "https://".toList) ∧ host ≠ [] ∧
    ∀ c ∈ host, c ∈ letters ++ figures ++ "_!~*'().&=+$%-".toList

/-- A word that is a link, or has no slash. -/
def Word (w : List Char) : Prop := ' ' ∉ w ∧ (IsUrl w ∨ '/' ∉ w)

/-- Words with spaces between them. -/
def spaced : List (List Char) → List Char
  | [] => []
  | [w] => w
  | w :: ws => w ++ ' ' :: spaced ws

end Verif.Social.Text
