/-
Model of /repo/plugins/http/httpcodegen/{clientgen,servergen}.go: what the generated client and server
methods do with arguments, results and errors, with the library functions they call (net/url, net/http and
encoding/json, which are not part of /repo).
Bytes are `Fin 256`; Go strings are lists of bytes.
Simplifications: type definitions are unfolded, so recursive types are not modelled; interfaces, arrays,
embedded fields and user-written JSON methods are not modelled; `[]byte` is treated as any other slice;
the two zeros of floating point numbers are not distinguished.
-/
namespace Verif.Http

scoped notation "Byte" => Fin 256
scoped notation "Bytes" => List (Fin 256)

/-! ### Query strings (net/url) -/

/-- The bytes that `url.QueryEscape` leaves alone: letters, digits, `-`, `_`, `.`, `~`. -/
def unreserved (b : Byte) : Bool :=
  (97 ≤ b.val && b.val ≤ 122) || (65 ≤ b.val && b.val ≤ 90) || (48 ≤ b.val && b.val ≤ 57) ||
  b.val == 45 || b.val == 95 || b.val == 46 || b.val == 126

/-- A hexadecimal digit, in upper case. -/
def hexDigit (n : Fin 16) : Byte := if n.val < 10 then Fin.ofNat 256 (48 + n.val) else Fin.ofNat 256 (55 + n.val)

/-- `unhex`, with the `ishex` test. -/
def unhex (b : Byte) : Option (Fin 16) :=
  if 48 ≤ b.val ∧ b.val ≤ 57 then some (Fin.ofNat 16 (b.val - 48))
  else if 97 ≤ b.val ∧ b.val ≤ 102 then some (Fin.ofNat 16 (b.val - 87))
  else if 65 ≤ b.val ∧ b.val ≤ 70 then some (Fin.ofNat 16 (b.val - 55))
  else none

/-- `url.QueryEscape`, for one byte: a space becomes `+`, others `%` and two digits. -/
def escapeByte (b : Byte) : Bytes :=
  if unreserved b then [b]
  else if b.val = 32 then [43]
  else [37, hexDigit (Fin.ofNat 16 (b.val / 16)), hexDigit (Fin.ofNat 16 (b.val % 16))]

/-- `url.QueryEscape`. -/
def escape (s : Bytes) : Bytes := s.flatMap escapeByte

/-- Where `url.QueryUnescape` is in an escape sequence. -/
inductive Esc where
  | plain
  | percent
  | digit (h : Fin 16)

/-- `url.QueryUnescape`; `none` is an error. -/
def unescape : Esc → Bytes → Option Bytes
  | .plain, [] => some []
  | _, [] => none
  | .plain, c :: cs =>
    if c.val = 37 then unescape .percent cs
    else if c.val = 43 then (unescape .plain cs).map (32 :: ·)
    else (unescape .plain cs).map (c :: ·)
  | .percent, c :: cs =>
    match unhex c with
    | some h => unescape (.digit h) cs
    | none => none
  | .digit h, c :: cs =>
    match unhex c with
    | some l => (unescape .plain cs).map (Fin.ofNat 256 (h.val * 16 + l.val) :: ·)
    | none => none

/-- `strings.Cut(s, sep)` for a one-byte separator: the parts before and after the first one; when there
is none, all of `s` and nothing. -/
def cut (sep : Byte) : Bytes → Bytes × Bytes
  | [] => ([], [])
  | c :: cs => if c = sep then ([], cs) else ((c :: (cut sep cs).1), (cut sep cs).2)

/-- `strings.Split(s, sep)` for a one-byte separator. -/
def splitOn (sep : Byte) : Bytes → List Bytes
  | [] => [[]]
  | c :: cs =>
    if c = sep then [] :: splitOn sep cs
    else match splitOn sep cs with
      | l :: ls => (c :: l) :: ls
      | [] => [[c]]

/-- One part of a query string in `url.ParseQuery`: empty parts, parts with a semicolon and parts that
cannot be unescaped are left out. -/
def parsePair (part : Bytes) : Option (Bytes × Bytes) :=
  if part = [] then none
  else if (59 : Byte) ∈ part then none
  else
    match unescape .plain (cut 61 part).1, unescape .plain (cut 61 part).2 with
    | some k, some v => some (k, v)
    | _, _ => none

/-- `URL.Query` (`url.ParseQuery` without its error): the pairs in order. -/
def parseQuery (raw : Bytes) : List (Bytes × Bytes) := (splitOn 38 raw).filterMap parsePair

/-- `Values.Get`: the first value of the key, or the empty string. -/
def queryGet (vals : List (Bytes × Bytes)) (k : Bytes) : Bytes := (vals.lookup k).getD []

/-- Comparison of strings, byte by byte. -/
def leBytes : Bytes → Bytes → Bool
  | [], _ => true
  | _ :: _, [] => false
  | a :: as, b :: bs => if a < b then true else if b < a then false else leBytes as bs

/-- `key=value`. -/
def pairText (p : Bytes × Bytes) : Bytes := escape p.1 ++ 61 :: escape p.2

/-- Joins with `&`. -/
def joinAmp : List Bytes → Bytes
  | [] => []
  | [p] => p
  | p :: ps => p ++ 38 :: joinAmp ps

/-- `Values.Encode`: the pairs in the order of the keys.  `vals` has one value per key. -/
def encodeValues (vals : List (Bytes × Bytes)) : Bytes :=
  joinAmp ((vals.mergeSort fun a b => leBytes a.1 b.1).map pairText)

/-- The URL without scheme and host, as `URL.String` writes it. -/
def target (path raw : Bytes) : Bytes := if raw = [] then path else path ++ 63 :: raw

/-- `url.Parse` of it: the fragment is cut off at `#`, then the query at `?`.  Escapes in the path are not
modelled. -/
def parseTarget (t : Bytes) : Bytes × Bytes := cut 63 (cut 35 t).1

/-! ### JSON (encoding/json) -/

/-- A key of a JSON object.  Simplification: an integer key is kept as a number instead of its decimal
text. -/
inductive JKey where
  | str (s : Bytes)
  | int (n : Int)
deriving DecidableEq, Repr

/-- A number; the text of a floating point number stands for the number. -/
inductive JNum where
  | int (n : Int)
  | float (f : Int)
deriving DecidableEq, Repr

/-- A JSON value.  The keys and values of an object are two lists of the same length. -/
inductive Json where
  | null
  | bool (b : Bool)
  | num (n : JNum)
  | str (s : Bytes)
  | arr (js : List Json)
  | obj (ks : List JKey) (js : List Json)
deriving Repr

/-- A key is valid UTF-8. -/
def JKey.clean (valid : Bytes → Bool) : JKey → Prop
  | .str s => valid s = true
  | .int _ => True

mutual
/-- All strings in a JSON value are valid UTF-8. -/
def Json.clean (valid : Bytes → Bool) : Json → Prop
  | .str s => valid s = true
  | .arr js => Json.cleanAll valid js
  | .obj ks js => (∀ k ∈ ks, k.clean valid) ∧ Json.cleanAll valid js
  | _ => True
def Json.cleanAll (valid : Bytes → Bool) : List Json → Prop
  | [] => True
  | j :: js => j.clean valid ∧ Json.cleanAll valid js
end

/-- What is used of Go's libraries without modelling it: UTF-8 validity, the replacement of invalid bytes by
U+FFFD, and the text of a JSON value.  The laws are assumptions about the libraries. -/
structure Lib where
  valid : Bytes → Bool
  replace : Bytes → Bytes
  print : Json → Bytes
  parse : Bytes → Option Json
  valid_replace : ∀ s, valid (replace s) = true
  replace_valid : ∀ s, valid s = true → replace s = s
  parse_print : ∀ j, j.clean valid → parse (print j) = some j
  parse_nil : parse [] = none

/-- What encoding/json sees of a struct's field: its name, whether it is exported, the name in its `json`
tag, and whether the tag is `-` or has the option `omitempty`. -/
structure Field where
  name : Bytes
  exported : Bool := true
  tag : Option Bytes := none
  skip : Bool := false
  omitempty : Bool := false
deriving DecidableEq, Repr

/-- The types of map keys: strings, and integers from `lo` to `hi`. -/
inductive KeyTy where
  | string
  | int (lo hi : Int)
deriving DecidableEq, Repr

/-- Go types.  `defined t` is a type defined by the user as `t`; `opaque` is a type that JSON does not know
(functions, channels, …). -/
inductive Ty where
  | bool
  | int (lo hi : Int)
  | float
  | string
  | slice (t : Ty)
  | map (k : KeyTy) (t : Ty)
  | ptr (t : Ty)
  | struct (fs : List Field) (ts : List Ty)
  | defined (t : Ty)
  | opaque
deriving Repr

/-- Floating point numbers; 0 is `fin 0`. -/
inductive Flt where
  | fin (f : Int)
  | nan
  | inf
deriving DecidableEq, Repr

/-- Map keys. -/
inductive Key where
  | str (s : Bytes)
  | int (n : Int)
deriving DecidableEq, Repr

/-- Go values.  A map is the list of its keys, in the order in which JSON writes them, and the list of the
values. -/
inductive Val where
  | bool (b : Bool)
  | int (n : Int)
  | float (f : Flt)
  | str (s : Bytes)
  | nilSlice
  | slice (vs : List Val)
  | nilMap
  | map (ks : List Key) (vs : List Val)
  | nilPtr
  | ptr (v : Val)
  | struct (vs : List Val)
  | opaque
deriving Repr

mutual
/-- The zero value of a type. -/
def zero : Ty → Val
  | .bool => .bool false
  | .int _ _ => .int 0
  | .float => .float (.fin 0)
  | .string => .str []
  | .slice _ => .nilSlice
  | .map _ _ => .nilMap
  | .ptr _ => .nilPtr
  | .struct _ ts => .struct (zeros ts)
  | .defined t => zero t
  | .opaque => .opaque
def zeros : List Ty → List Val
  | [] => []
  | t :: ts => zero t :: zeros ts
end

/-- The key of a field in the JSON object. -/
def Field.key (f : Field) : Bytes := f.tag.getD f.name

/-- Fields that JSON considers. -/
def Field.candidate (f : Field) : Bool := f.exported && !f.skip

/-- The fields of a struct that are written and read (encoding/json `typeFields`, `dominantField`): of
several fields with one key, the only one that has the key by its tag; otherwise none of them. -/
def live (all : List Field) (f : Field) : Bool :=
  let rivals := all.filter fun g => g.candidate && g.key == f.key
  f.candidate && (rivals.length == 1 || (f.tag.isSome && (rivals.filter (·.tag.isSome)).length == 1))

/-- `isEmptyValue`: the values that `omitempty` leaves out. -/
def emptyVal : Val → Bool
  | .bool b => !b
  | .int n => n == 0
  | .float f => f == .fin 0
  | .str s => s.isEmpty
  | .nilSlice => true
  | .slice vs => vs.isEmpty
  | .nilMap => true
  | .map ks _ => ks.isEmpty
  | .nilPtr => true
  | _ => false

/-- A map key in the object. -/
def encodeKey (lib : Lib) : Key → JKey
  | .str s => .str (lib.replace s)
  | .int n => .int n

mutual
/-- `json.Marshal`, as a tree; `none` is an error. -/
def encode (lib : Lib) : Ty → Val → Option Json
  | .bool, .bool b => some (.bool b)
  | .int _ _, .int n => some (.num (.int n))
  | .float, .float (.fin f) => some (.num (.float f))
  | .string, .str s => some (.str (lib.replace s))
  | .slice _, .nilSlice => some .null
  | .slice t, .slice vs => (vs.mapM (encode lib t)).map .arr
  | .map _ _, .nilMap => some .null
  | .map _ t, .map ks vs => (vs.mapM (encode lib t)).map (.obj (ks.map (encodeKey lib)))
  | .ptr _, .nilPtr => some .null
  | .ptr t, .ptr v => encode lib t v
  | .struct fs ts, .struct vs =>
    (encodeFields lib fs fs ts vs).map fun p => .obj (p.map (fun x => .str x.1)) (p.map (·.2))
  | .defined t, v => encode lib t v
  | _, _ => none
/-- The fields of a struct. -/
def encodeFields (lib : Lib) (all : List Field) : List Field → List Ty → List Val → Option (List (Bytes × Json))
  | f :: fs, t :: ts, v :: vs =>
    if live all f && !(f.omitempty && emptyVal v) then
      match encode lib t v with
      | none => none
      | some j => (encodeFields lib all fs ts vs).map ((f.key, j) :: ·)
    else encodeFields lib all fs ts vs
  | _, _, _ => some []
end

/-- A map key from the object; `none` is an error. -/
def decodeKey : KeyTy → JKey → Option Key
  | .string, .str s => some (.str s)
  | .int lo hi, .int n => if lo ≤ n ∧ n ≤ hi then some (.int n) else none
  | _, _ => none

/-- An assignment to a map entry. -/
def insertEntry (k : Key) (v : Val) : List (Key × Val) → List (Key × Val)
  | [] => [(k, v)]
  | e :: es => if e.1 = k then (k, v) :: es else e :: insertEntry k v es

/-- The value of a key in an object. -/
def field (k : Bytes) : List JKey → List Json → Option Json
  | x :: ks, j :: js => if x = .str k then some j else field k ks js
  | _, _ => none

mutual
/-- `json.Unmarshal` of a tree into a new variable; `none` is an error. -/
def decode : Ty → Json → Option Val
  | .bool, .bool b => some (.bool b)
  | .int lo hi, .num (.int n) => if lo ≤ n ∧ n ≤ hi then some (.int n) else none
  | .float, .num (.float f) => some (.float (.fin f))
  | .string, .str s => some (.str s)
  | .slice _, .null => some .nilSlice
  | .slice t, .arr js => (js.mapM (decode t)).map .slice
  | .map _ _, .null => some .nilMap
  | .map kt t, .obj ks js =>
    match ks.mapM (decodeKey kt), js.mapM (decode t) with
    | some ks, some vs =>
      let es := (ks.zip vs).foldl (fun es e => insertEntry e.1 e.2 es) []
      some (.map (es.map (·.1)) (es.map (·.2)))
    | _, _ => none
  | .ptr _, .null => some .nilPtr
  | .ptr t, j => (decode t j).map .ptr
  | .struct fs ts, .obj ks js => (decodeFields fs fs ts ks js).map .struct
  | .defined t, j => decode t j
  | .bool, .null => some (.bool false)                  -- null leaves the variable alone
  | .int _ _, .null => some (.int 0)
  | .float, .null => some (.float (.fin 0))
  | .string, .null => some (.str [])
  | .struct _ ts, .null => some (.struct (zeros ts))
  | .opaque, .null => some .opaque
  | _, _ => none
/-- The fields of a struct. -/
def decodeFields (all : List Field) : List Field → List Ty → List JKey → List Json → Option (List Val)
  | f :: fs, t :: ts, ks, js =>
    match (if live all f then field f.key ks js else none) with
    | none => (decodeFields all fs ts ks js).map (zero t :: ·)
    | some j =>
      match decode t j with
      | none => none
      | some v => (decodeFields all fs ts ks js).map (v :: ·)
  | _, _, _, _ => some []
end

/-! ### The generated methods -/

/-- A method of the service, without the context and the error. -/
structure Method where
  name : Bytes
  args : List (Bytes × Ty)
  rets : List Ty

/-- `eq (NameOf $arg.Type) "string"` (clientgen.go line 79, servergen.go line 93). -/
def Ty.isString : Ty → Bool
  | .string => true
  | _ => false

/-- One argument as text (clientgen.go lines 79-87). -/
def argText (lib : Lib) (t : Ty) (v : Val) : Option Bytes :=
  if t.isString then
    match v with
    | .str s => some s
    | _ => none
  else (encode lib t v).map lib.print

/-- `vals` (clientgen.go lines 77-88); `none` if an argument has no JSON. -/
def requestVals (lib : Lib) : List (Bytes × Ty) → List Val → Option (List (Bytes × Bytes))
  | (name, t) :: args, v :: vs =>
    match argText lib t v with
    | none => none
    | some s => (requestVals lib args vs).map ((name, s) :: ·)
  | _, _ => some []

/-- The request's target (clientgen.go lines 90-96). -/
def request (lib : Lib) (m : Method) (vs : List Val) : Option Bytes :=
  (requestVals lib m.args vs).map fun vals => target (47 :: m.name) (encodeValues vals)

/-- One argument from its text (servergen.go lines 93-105); `none` is a reply with status 500. -/
def parseArg (lib : Lib) (t : Ty) (s : Bytes) : Option Val :=
  if t.isString then some (.str s)
  else if s = [] then some (zero t)
  else (lib.parse s).bind (decode t)

/-- The context a service method is called with: the caller's, with a deadline or not, or
`context.Background()`. -/
inductive Ctx where
  | caller (deadline : Option Nat)
  | background
deriving DecidableEq, Repr

/-- How a service method ends. -/
inductive Outcome where
  | ok (rets : List Val)
  | err (msg : Bytes)
  | panic

/-- The service: how the execution with a number (counted from the start of the call) ends. -/
abbrev Service := Nat → Bytes → Ctx → List Val → Outcome

/-- What the server sends: a response, or it closes the connection (net/http does that when a handler
panics). -/
inductive Reply where
  | response (status : Nat) (body : Bytes)
  | closed
deriving Repr

/-- One execution of a service method. -/
structure Run where
  method : Bytes
  ctx : Ctx
  args : List Val
deriving Repr

/-- `Ret` and the number: the names of the response's fields (clientgen.go lines 107-109). -/
def retFields : Nat → List Ty → List Field
  | _, [] => []
  | i, _ :: ts =>
    { name := 82 :: 101 :: 116 :: (toString i).toList.map (fun c => Fin.ofNat 256 c.toNat) } :: retFields (i + 1) ts

/-- The response's type (clientgen.go lines 106-110, servergen.go lines 113-117). -/
def responseTy (m : Method) : Ty := .struct (retFields 0 m.rets) m.rets

/-- The generated handler of a method (servergen.go lines 88-122), on the parsed query.  The error of
`Encode` (line 121) is ignored: nothing has been written, so the reply is an empty one. -/
def handler (lib : Lib) (svc : Service) (n : Nat) (m : Method) (query : List (Bytes × Bytes)) : List Run × Reply :=
  match m.args.mapM fun a => parseArg lib a.2 (queryGet query a.1) with
  | none => ([], .response 500 [])
  | some vs =>
    ([⟨m.name, .background, vs⟩],
      match svc n m.name .background vs with
      | .panic => .closed
      | .err msg => .response 500 msg
      | .ok rets =>
        match encode lib (responseTy m) (.struct rets) with
        | none => .response 200 []
        | some j => .response 200 (lib.print j))

/-- The server: the router (servergen.go lines 65-69) and the handlers. -/
def serve (lib : Lib) (svc : Service) (ms : List Method) (n : Nat) (t : Bytes) : List Run × Reply :=
  let p := parseTarget t
  match ms.find? fun m => 47 :: m.name = p.1 with
  | none => ([], .response 404 [])
  | some m => handler lib svc n m (parseQuery p.2)

/-- The errors that a client method returns: an argument has no JSON, no response, a status other than 2xx
(`StatusCode was …`), a body that cannot be read. -/
inductive Err where
  | argument
  | network
  | status (code : Nat)
  | body
deriving DecidableEq, Repr

/-- What a client method returns: results, or an error (with zero values). -/
inductive Result where
  | ok (rets : List Val)
  | err (e : Err)
deriving Repr

/-- The client's treatment of a response (clientgen.go lines 97-122).  The text of an error response is not
looked at. -/
def readReply (lib : Lib) (m : Method) : Reply → Result
  | .closed => .err .network
  | .response status body =>
    if 200 ≤ status ∧ status < 300 then
      match (lib.parse body).bind (decode (responseTy m)) with
      | some (.struct rets) => .ok rets
      | _ => .err .body
    else .err (.status status)

/-- What the network does in one attempt of net/http's `Transport` to send a request: it could not be
delivered; it is delivered and the reply arrives; or it is delivered and the connection breaks before the
reply arrives.  `reused` says whether the attempt uses a connection that was used before. -/
inductive Attempt where
  | refused
  | delivered (reused : Bool)
  | broken (reused : Bool)
deriving DecidableEq, Repr

/-- `Client.Get` (clientgen.go line 96): net/http (`shouldRetryRequest`) repeats a GET request when a reused
connection breaks before the reply. `none`: error.  `n` is the number of executions so far. -/
def send (srv : Nat → Bytes → List Run × Reply) (t : Bytes) : Nat → List Attempt → List Run × Option Reply
  | _, [] => ([], none)
  | _, .refused :: _ => ([], none)
  | n, .broken reused :: as =>
    let r := srv n t
    if reused then
      let rest := send srv t (n + r.1.length) as
      (r.1 ++ rest.1, rest.2)
    else (r.1, none)
  | n, .delivered reused :: as =>
    let r := srv n t
    match r.2 with
    | .closed =>
      if reused then
        let rest := send srv t (n + r.1.length) as
        (r.1 ++ rest.1, rest.2)
      else (r.1, none)
    | reply => (r.1, some reply)

/-- A call of a generated client method (clientgen.go lines 76-123): the executions of the service method, in
order, and what the caller gets.  The caller's context is not used. -/
def call (lib : Lib) (svc : Service) (ms : List Method) (net : List Attempt) (m : Method) (_ctx : Ctx)
    (vs : List Val) : List Run × Result :=
  match request lib m vs with
  | none => ([], .err .argument)
  | some t =>
    let r := send (serve lib svc ms) t 0 net
    (r.1, match r.2 with
      | none => .err .network
      | some reply => readReply lib m reply)

end Verif.Http
