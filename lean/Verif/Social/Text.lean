/-
The text of posts in the social network example (examples/dsb_sn/workflow/socialnetwork): TextService.go, UrlShortenService.go,
MediaService.go, ComposePostService.go and Wrk2APIService.go.

Simplifications: a text is a list of characters (valid UTF-8); errors are a type `E`.
-/
namespace Verif.Social.Text

abbrev Name := List Char

/-! ### Regular expressions -/

/-- `[a-zA-Z0-9-_]` (TextService.go line 29). -/
def nameChar (c : Char) : Bool := c.isAlpha || c.isDigit || c == '-' || c == '_'

/-- `[a-zA-Z0-9_!~*'().&=+$%-]` (line 35). -/
def hostChar (c : Char) : Bool := c.isAlpha || c.isDigit || "_!~*'().&=+$%-".toList.contains c

/-- The length of the match of `@[a-zA-Z0-9-_]+` at the beginning of a text; 0 if there is none. -/
def mentionLen : List Char → Nat
  | '@' :: t => match (t.takeWhile nameChar).length with
    | 0 => 0
    | n + 1 => n + 2
  | _ => 0

/-- The length of the match of a scheme and at least one character of the class. -/
def schemeLen (scheme t : List Char) : Nat :=
  if scheme.isPrefixOf t then
    match ((t.drop scheme.length).takeWhile hostChar).length with
    | 0 => 0
    | n + 1 => scheme.length + (n + 1)
  else 0

/-- The length of the match of `(http://|https://)([...]+)`: the first alternative that matches. -/
def urlLen (t : List Char) : Nat :=
  match schemeLen "http://".toList t with
  | 0 => schemeLen "https://".toList t
  | n + 1 => n + 1

/-- `Regexp.FindAllString(text, -1)`: the matches from left to right, each after the end of the one before.  The number is the count of
characters to skip. -/
def findAll (len : List Char → Nat) : Nat → List Char → List Name
  | _, [] => []
  | k + 1, _ :: t => findAll len k t
  | 0, c :: t => match len (c :: t) with
    | 0 => findAll len 0 t
    | n + 1 => (c :: t).take (n + 1) :: findAll len n t

/-- `strings.ReplaceAll(t, old, new)`, for an `old` that is not empty. -/
def replaceAll (old new : List Char) : Nat → List Char → List Char
  | _, [] => []
  | k + 1, _ :: t => replaceAll old new k t
  | 0, c :: t => if old.isPrefixOf (c :: t) then new ++ replaceAll old new (old.length - 1) t else c :: replaceAll old new 0 t

/-! ### Services -/

/-- DataModels.go `URL`. -/
structure Url where
  short : Name
  long : Name
  deriving DecidableEq, Repr

/-- UrlShortenService.go line 28. -/
def hostname : Name := "http://short-url/".toList

/-- `ComposeUrls` (lines 40-62): `draws` are the random strings.  The result, and the documents that are inserted. -/
def composeUrls (draws urls : List Name) : List Url × List Url :=
  let r := (urls.zip draws).map fun e => ⟨hostname ++ e.2, e.1⟩
  (r, r)

/-- `GetExtendedUrls` (lines 66-69). -/
def getExtendedUrls (_docs : List Url) (_shorts : List Name) : List Name := []

/-- Lines 29-34. -/
def usernames (text : List Char) : List Name := (findAll mentionLen 0 text).map (·.drop 1)

/-- Lines 35-36. -/
def urlStrings (text : List Char) : List Name := findAll urlLen 0 text

/-- Lines 59-64.  (The services return as many URLs as they are given.) -/
def shortenAll (text : List Char) : List Name → List Url → List Char
  | u :: us, r :: rs => shortenAll (replaceAll u r.short 0 text) us rs
  | _, _ => text

/-- What the two services reply; `none` is no error. -/
structure Parts (E M : Type) where
  urls : List Name → List Url × Option E
  mentions : List Name → List M × Option E

/-- `ComposeText` (lines 28-67).  The two services are asked concurrently, about different things. -/
def composeText {E M : Type} (p : Parts E M) (text : List Char) : List Char × List M × List Url × Option E :=
  let us := urlStrings text
  let u := p.urls us
  let m := p.mentions (usernames text)
  match u.2, m.2 with
  | some e, _ => (text, m.1, u.1, some e)
  | none, some e => (text, m.1, u.1, some e)
  | none, none => (shortenAll text us u.1, m.1, u.1, none)

/-- `ComposeMedia` (MediaService.go lines 23-37); `none` is the error. -/
def composeMedia (types : List Name) (ids : List Int) : Option (List (Int × Name)) :=
  if types.length = ids.length then some (ids.zip types) else none

/-! ### ComposePost -/

/-- DataModels.go `Post`. -/
structure Post (M C : Type) where
  id : Int
  creator : C
  request : Int
  text : List Char
  mentions : List M
  media : List (Int × Name)
  urls : List Url
  timestamp : Int
  kind : Int

/-- What the services behind ComposePost reply.  The three writes may fail, and change their own stores. -/
structure Backend (E M C S T H : Type) where
  text : List Char → List Char × List M × List Url × Option E
  media : List Name → List Int → List (Int × Name) × Option E
  unique : Int → Int × Option E
  creator : Int → Name → C × Option E
  store : Post M C → S → S × Option E
  userTimeline : Int → Int → Int → T → T × Option E
  homeTimeline : Int → Int → Int → List Int → H → H × Option E

/-- `ComposePost` (ComposePostService.go lines 33-112) at the time `now`.  The four calls of the first group, and the three of the second, are
concurrent, and touch different stores.  `post.Timestamp` is not assigned. -/
def composePost {E M C S T H : Type} (b : Backend E M C S T H) (idOf : M → Int) (now request : Int) (username : Name) (user : Int)
    (text : List Char) (mediaIds : List Int) (mediaTypes : List Name) (kind : Int) (s : S) (t : T) (h : H) :
    (S × T × H) × Int × List Int × Option E :=
  let tx := b.text text
  let md := b.media mediaTypes mediaIds
  let un := b.unique kind
  let cr := b.creator user username
  match tx.2.2.2, md.2, un.2, cr.2 with
  | some e, _, _, _ => ((s, t, h), -1, [], some e)
  | none, some e, _, _ => ((s, t, h), -1, [], some e)
  | none, none, some e, _ => ((s, t, h), -1, [], some e)
  | none, none, none, some e => ((s, t, h), -1, [], some e)
  | none, none, none, none =>
    let post : Post M C := ⟨un.1, cr.1, request, tx.1, tx.2.1, md.1, tx.2.2.1, 0, kind⟩
    let ids := tx.2.1.map idOf
    let rs := b.store post s
    let rt := b.userTimeline un.1 user now t
    let rh := b.homeTimeline un.1 user now ids h
    ((rs.1, rt.1, rh.1), un.1, ids,
      match rs.2, rt.2, rh.2 with
      | some e, _, _ => some e
      | none, some e, _ => some e
      | none, none, e => e)

/-! ### The gateway -/

/-- What Follow and Unfollow of the gateway pass on (Wrk2APIService.go lines 63-83). -/
inductive Passed where
  | byId (user followee : Int)
  | byName (user followee : Name)
  | invalid
  deriving DecidableEq

def gatewayFollow (username followeeName : Name) (user followee : Int) : Passed :=
  if user ≠ 0 ∧ followee ≠ 0 then .byId user followee
  else if username ≠ [] ∧ followeeName ≠ [] then .byName username followeeName
  else .invalid

/-- What the gateway's ComposePost passes on (lines 92-98). -/
def gatewayAccepts (user : Int) (username text : Name) : Bool := !(user == 0 || username == [] || text == [])

end Verif.Social.Text
