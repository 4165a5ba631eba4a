import Verif.Grpc.Spec
/-
Model of /repo/plugins/thrift/thriftcodegen: thriftgen.go (declarations), marshallgen.go (the
generated conversion functions), clientgen.go and servergen.go (the generated client and
server methods).  Go types, struct declarations, values and conversions are those of
`Verif.Grpc`.
Not modelled: the wire format.  A message arrives as it was sent; nil and empty lists and maps
are identified; strings are arbitrary; a float32 is a double with the same number, so numbers
are given by the bits of their own type; aliasing between values is ignored.  Identifiers are
ASCII.  The thrift compiler is not part of /repo: the Go types that it uses are in `goType`,
and the Go names that it gives to fields are a parameter.
-/
namespace Verif.Thrift
open Verif.Grpc

/-- The base types of thrift. -/
inductive Base where
  | bool | string | byte | i16 | i32 | i64 | double
deriving DecidableEq, Repr

/-- thriftgen.go:288-305 (basicToThirft). -/
def basicToThrift : Basic → Option Base
  | .bool => some .bool
  | .string => some .string
  | .int => some .i32
  | .int32 => some .i32
  | .int64 => some .i64
  | .int16 => some .i16
  | .int8 => some .byte
  | .uint32 => some .i64
  | .uint64 => some .i64
  | .uint8 => some .i64
  | .uint16 => some .i64
  | .float32 => some .double
  | .float64 => some .double
  | .byte => some .byte
  | .rune => some .byte
  | _ => none

/-- thriftgen.go:307-315 (thriftToBasic). -/
def thriftToBasic : Base → Basic
  | .bool => .bool
  | .string => .string
  | .byte => .byte
  | .double => .float64
  | .i64 => .int64
  | .i32 => .int32
  | .i16 => .int16

/-- The type in the .thrift file. -/
inductive TTy where
  | struct (name : Str)
  | base (b : Base)
  | map (k v : TTy)
  | list (t : TTy)
deriving DecidableEq, Repr

/-- The Go type that belongs to it (ThriftField.ThriftGoType). -/
inductive GoTy where
  | user (name : Str)
  | basic (b : Basic)
  | pointer (t : GoTy)
  | map (k v : GoTy)
  | slice (t : GoTy)
deriving DecidableEq, Repr

/-- thriftgen.go:317-360 (getThriftType): the types; the structs that are met on the way are
in `visit`.  `none` is an error. -/
def getThriftType : Ty → Option (TTy × GoTy)
  | .user t => some (.struct t.name, .user t.name)
  | .basic b => (basicToThrift b).map fun s => (.base s, .basic (thriftToBasic s))
  | .pointer t => (getThriftType t).map fun r => (r.1, .pointer r.2)
  | .map k v =>
    match getThriftType k, getThriftType v with
    | some (kp, kg), some (vp, vg) => some (.map kp vp, .map kg vg)
    | _, _ => none
  | .slice t => (getThriftType t).map fun r => (.list r.1, .slice r.2)
  | .other => none

/-- thriftgen.go:263-268: the named fields of a struct. -/
def namedFields (ds : List FieldDecl) : List (Str × Ty) :=
  (parseFields ds).filterMap fun p => p.name.map fun x => (x, p.ty)

/-- A loop over types, given what is done for each of them. -/
def loop (rec : List UserTy → Ty → Res (List UserTy)) : List Ty → List UserTy → Res (List UserTy)
  | [], vis => .ok vis
  | τ :: τs, vis => match rec vis τ with
    | .ok vis => loop rec τs vis
    | .error => .error
    | .stuck => .stuck

/-- thriftgen.go:241-286 (GetOrAddMessage) and 317-360 (getThriftType): the structs that get a
declaration, in the order in which they are met (GoStructs). -/
def visit (env : Structs) : Nat → List UserTy → Ty → Res (List UserTy)
  | 0, _, _ => .stuck
  | n + 1, vis, .user t =>
    if t ∈ vis then .ok vis
    else match env t with
      | none => .error
      | some ds => loop (visit env n) ((namedFields ds).map (·.2)) (vis ++ [t])
  | _ + 1, vis, .basic b => if (basicToThrift b).isSome then .ok vis else .error
  | n + 1, vis, .pointer t => visit env n vis t
  | n + 1, vis, .map k v => match visit env n vis k with
    | .ok vis => visit env n vis v
    | .error => .error
    | .stuck => .stuck
  | n + 1, vis, .slice t => visit env n vis t
  | _ + 1, _, .other => .error

/-- thriftgen.go:97-103 (ThriftField). -/
structure Field where
  src : Ty
  thrift : TTy
  go : GoTy
  name : Str
  position : Nat
deriving DecidableEq, Repr

/-- thriftgen.go:270-281: the fields of a struct; `i` is the number of fields before. -/
def fieldList : Nat → List (Str × Ty) → Option (List Field)
  | _, [] => some []
  | i, (x, τ) :: l =>
    match getThriftType τ, fieldList (i + 1) l with
    | some (p, g), some fs => some (⟨τ, p, g, x, i + 1⟩ :: fs)
    | _, _ => none

/-- thriftgen.go:205-208: the names of arguments and results; `i` is the number of variables
before. -/
def varNames : Nat → List (Str × Ty) → List (Str × Ty)
  | _, [] => []
  | i, (x, τ) :: l => (argName i x, τ) :: varNames (i + 1) l

/-- thriftgen.go:197-218 (makeFieldList). -/
def makeFieldList (vars : List (Str × Ty)) : Option (List Field) := fieldList 0 (varNames 0 vars)

/-- marshallgen.go:145-198 (Marshall) and 200-256 (Unmarshall) know the type: both return an
error for the same types. -/
def marshallable : GoTy → Bool
  | .user _ => true
  | .basic _ => true
  | .pointer (.user _) => true
  | .pointer (.basic _) => true
  | .map _ (.user _) => true
  | .map _ (.basic _) => true
  | .slice (.user _) => true
  | .slice (.basic _) => true
  | _ => false

/-- The declarations: structs, and methods with their requests and responses. -/
structure File where
  structs : List (UserTy × List Field)
  methods : List (Str × List Field × List Field)
deriving DecidableEq, Repr

/-- The declarations of the structs. -/
def structDecls (env : Structs) : List UserTy → Option (List (UserTy × List Field))
  | [] => some []
  | t :: ts => match env t with
    | none => none
    | some ds => match fieldList 0 (namedFields ds), structDecls env ts with
      | some fs, some l => some ((t, fs) :: l)
      | _, _ => none

/-- The declarations of the methods (thriftgen.go:221-239). -/
def methodDecls : List Method → Option (List (Str × List Field × List Field))
  | [] => some []
  | m :: ms => match makeFieldList m.args, makeFieldList m.rets, methodDecls ms with
    | some req, some rsp, some l => some ((m.name, req, rsp) :: l)
    | _, _, _ => none

/-- The types of a method, in the order in which they are translated. -/
def Method.types (m : Method) : List Ty := m.args.map (·.2) ++ m.rets.map (·.2)

/-- All lists of fields. -/
def File.fieldLists (file : File) : List (List Field) :=
  file.methods.flatMap (fun m => [m.2.1, m.2.2]) ++ file.structs.map (·.2)

/-- thriftgen.go:21-65 (GenerateThrift), 221-239 (AddService).  The methods are a Go map: they
come in any order. -/
def generate (env : Structs) (n : Nat) (ms : List Method) : Res File :=
  match loop (visit env n) (ms.flatMap Method.types) [] with
  | .ok vis => (match structDecls env vis, methodDecls ms with
    | some ss, some l =>
      let file : File := ⟨ss, l⟩
      if file.fieldLists.all fun fs => fs.all fun f => marshallable f.go then .ok file else .error
    | _, _ => .error)
  | .error => .error
  | .stuck => .stuck

/-! ### The Go compiler -/

/-- `strings.ToLower` and `strings.ToUpper` for ASCII. -/
def lower (x : Str) : Str := x.map fun c => if 'A' ≤ c ∧ c ≤ 'Z' then Char.ofNat (c.toNat + 32) else c
def upper (x : Str) : Str := x.map fun c => if 'a' ≤ c ∧ c ≤ 'z' then Char.ofNat (c.toNat - 32) else c

/-- marshallgen.go:13-18 (commonInitialisms). -/
def commonInitialisms : List Str :=
  ["id", "url", "uri", "http", "https", "api", "json", "xml", "html", "css", "sql", "ip", "tcp",
    "udp", "dns", "tls", "ssl", "cpu", "ram", "uuid"].map String.toList

/-- marshallgen.go:22-28 (capitalizeFieldName). -/
def capital (x : Str) : Str := if lower x ∈ commonInitialisms then upper x else title x

/-- The Go type that the thrift compiler uses for a base type (not part of /repo). -/
def goType : Base → Basic
  | .bool => .bool
  | .string => .string
  | .byte => .int8
  | .i16 => .int16
  | .i32 => .int32
  | .i64 => .int64
  | .double => .float64

/-- A value of type `τ` may be assigned to a variable of the Go type of `s`. -/
def assignable (τ : Ty) (s : Base) : Bool :=
  match τ with
  | .basic b => sameGo b (goType s)
  | _ => false

/-- The statements of a field are well typed (marshallgen.go:145-256). -/
def goOk (f : Field) : Bool :=
  match f.go, f.thrift, f.src with
  | .user _, _, _ => true
  -- `msg.F = B(x)`
  | .basic b, .base s, _ => sameGo b (goType s)
  | .pointer (.user _), _, _ => true
  -- `x = &*B(msg.F)`
  | .pointer _, _, _ => false
  -- `msg.F = make(map[K]*T)` and `msg.F[k] = …` for keys `k` of the source
  | .map (.basic b) (.user _), .map (.base s) _, .map κ _ => sameGo b (goType s) && assignable κ s
  | .map _ (.basic _), .map (.base s) (.base s'), .map κ τ => assignable κ s && assignable τ s'
  | .slice (.user _), _, _ => true
  | .slice (.basic _), .list (.base s), .slice τ => assignable τ s
  | _, _, _ => false

/-- Names that the statements of `marshall_…_req` and the like use themselves: an argument of
that name may hide them.  `pkg` is the name of the imported package. -/
def hiddenNames (pkg : Str) : List Str :=
  pkg :: ["msg", "i", "k", "v", "objv", "new", "make", "append", "len", "bool", "string", "int", "int8",
    "int16", "int32", "int64", "uint8", "uint16", "uint32", "uint64", "byte", "rune", "float32",
    "float64"].map String.toList

/-- thriftgen.go:191-192. -/
def requestName (svc m : Str) : Str := svc ++ '_' :: m ++ "_Request".toList
def responseName (svc m : Str) : Str := svc ++ '_' :: m ++ "_Response".toList

/-- The names of all structs of the .thrift file. -/
def File.names (file : File) (svc : Str) : List Str :=
  file.methods.flatMap (fun m => [requestName svc m.1, responseName svc m.1]) ++
    file.structs.map fun e => e.1.name

/-- A list of fields for which the conversion functions compile.  `pub` gives the Go names of
the thrift compiler. -/
def fieldsOk (pub : Str → Str) (fs : List Field) : Bool :=
  decide (fs.map fun f => capital f.name).Nodup && decide (fs.map (·.name)).Nodup &&
  fs.all fun f => goOk f && decide (pub f.name = capital f.name)

/-- The thrift compiler and the Go compiler accept the declarations and the conversion
functions (a sufficient condition): no two structs have the same name, names and types are as
the statements expect, the fields of structs are exported, and no argument hides a name. -/
def File.accepted (pub : Str → Str) (svc : Str) (file : File) : Bool :=
  decide (file.names svc).Nodup &&
  (file.fieldLists.all (fieldsOk pub)) &&
  (file.structs.all fun e => e.2.all fun f => exported f.name) &&
  file.methods.all fun m => (m.2.1 ++ m.2.2).all fun f => decide (f.name ∉ hiddenNames (lower svc))

/-! ### Execution -/

/-- The conversion functions: the fields of each struct of the .thrift file. -/
scoped notation "Fns" => List Char → Option (List Field)

/-- The value that a statement of a `marshall` function gives to a field
(marshallgen.go:145-198).  `call T v` is `marshall_T(new(T), &v)`.  Statements that do not
compile panic here. -/
def packValue (call : Str → Val → Out Val) : GoTy → Val → Out Val
  | .user T, v => (call T v).map .ptr
  | .basic b, .prim p => .ok (.prim (convert b p))
  | .pointer (.user T), .ptr v => (call T v).map .ptr
  | .pointer (.user T), .nil => (call T .nil).map .ptr
  | .pointer (.basic b), .ptr (.prim p) => .ok (.prim (convert b p))
  | .map _ (.user T), .map es =>
    (each (fun e : Prim × Val => (call T e.2).map fun m => (e.1, Val.ptr m)) es).map .map
  | .map _ (.basic _), v => .ok v
  | .slice (.user T), .slice vs => (each (fun v => (call T v).map .ptr) vs).map .slice
  | .slice (.basic _), v => .ok v
  | _, _ => .panic

/-- The statements of a `marshall` function; `obj` are the fields of the object and `msg` is
the message so far. -/
def packAll (call : Str → Val → Out Val) (obj : List (Str × Val)) :
    List Field → List (Str × Val) → Out (List (Str × Val))
  | [], msg => .ok msg
  | f :: fs, msg => match get f.name obj with
    | none => .panic
    | some v => match packValue call f.go v with
      | .ok m => packAll call obj fs (put (capital f.name) m msg)
      | .panic => .panic
      | .stuck => .stuck

/-- marshallgen.go:105-110: `marshall_T(new(T), obj)`; a nil `obj` is dereferenced by the first
statement. -/
def marshal (fns : Fns) : Nat → Str → Val → Out Val
  | 0, _, _ => .stuck
  | n + 1, T, v => match fns T, v with
    | some fs, .struct obj => (match packAll (marshal fns n) obj fs [] with
      | .ok msg => .ok (.struct msg)
      | .panic => .panic
      | .stuck => .stuck)
    | some [], .nil => .ok (.struct [])
    | _, _ => .panic

/-- `unmarshall_T(v, &x)`, for an element `v` of a list or map, and a zero `x`. -/
def unpackElem (call : Str → Val → Val → Out Val) (T : Str) : Val → Out Val
  | .ptr m => call T m (.struct [])
  | _ => .panic

/-- The value of a field after its statement in an `unmarshall` function
(marshallgen.go:200-256), from its value before (`none`: its zero value) and the value in the
message.  `call T m v` is `unmarshall_T(m, &v)`; it gives the new `v`. -/
def unpackValue (call : Str → Val → Val → Out Val) (src : Ty) (old : Option Val) : GoTy → Val → Out (Option Val)
  | .user T, .ptr m => (call T m (old.getD (.struct []))).map some
  | .basic _, .prim p => (match src with
    | .basic b => .ok (some (.prim (convert b p)))
    | _ => .panic)
  | .pointer (.user T), .ptr m => (match old with
    | some (.ptr v) => (call T m v).map fun v => some (.ptr v)
    | _ => (call T m .nil).map some)
  | .pointer (.basic _), .prim p => (match src with
    | .pointer (.basic b) => .ok (some (.ptr (.prim (convert b p))))
    | _ => .panic)
  | .map _ (.user T), .map es =>
    -- `objv` is a copy of the element, which is thrown away
    (each (fun e : Prim × Val => unpackElem call T e.2) es).map fun _ => some (.map [])
  -- `msg.F = x`
  | .map _ (.basic _), _ => .ok old
  | .slice (.user T), .slice ms => (each (unpackElem call T) ms).map fun vs => some (.slice vs)
  | .slice (.basic _), v => .ok (some v)
  | _, _ => .panic

/-- The field gets a value, or keeps the one it has. -/
def setField (x : Str) (v : Option Val) (obj : List (Str × Val)) : List (Str × Val) :=
  match v with
  | some v => put x v obj
  | none => obj

/-- The statements of an `unmarshall` function. -/
def unpackAll (call : Str → Val → Val → Out Val) (msg : List (Str × Val)) :
    List Field → List (Str × Val) → Out (List (Str × Val))
  | [], obj => .ok obj
  | f :: fs, obj => match get (capital f.name) msg with
    | none => .panic
    | some m => match unpackValue call f.src (get f.name obj) f.go m with
      | .ok v => unpackAll call msg fs (setField f.name v obj)
      | .panic => .panic
      | .stuck => .stuck

/-- marshallgen.go:113-117: `unmarshall_T(m, obj)`; a nil `obj` is dereferenced by the first
statement. -/
def unmarshal (fns : Fns) : Nat → Str → Val → Val → Out Val
  | 0, _, _, _ => .stuck
  | n + 1, T, m, v => match fns T, m, v with
    | some fs, .struct msg, .struct obj => (match unpackAll (unmarshal fns n) msg fs obj with
      | .ok obj => .ok (.struct obj)
      | .panic => .panic
      | .stuck => .stuck)
    | some [], _, .nil => .ok .nil
    | _, _, _ => .panic

/-- The conversion functions of the structs (marshallgen.go:103-118). -/
def File.fns (file : File) : Fns := fun T => (file.structs.find? fun e => e.1.name = T).map (·.2)

/-- marshallgen.go:64-69 and 82-87: packing the arguments (or results) of a method. -/
def pack (file : File) (n : Nat) (fs : List Field) (args : List (Str × Val)) : Out (List (Str × Val)) :=
  packAll (marshal file.fns n) args fs []

/-- marshallgen.go:72-79 and 90-97: unpacking them. -/
def unpack (file : File) (n : Nat) (fs : List Field) (msg : List (Str × Val)) : Out (List (Str × Val)) :=
  unpackAll (unmarshal file.fns n) msg fs []

/-! ### The generated client and server -/

/-- What happens to a call: the reply comes in time, or after the time limit of one second (in
which case either the context or the socket notices first), or the connection breaks before
the request or the reply has been delivered. -/
inductive Fate where
  | prompt
  | late (contextFirst : Bool)
  | lostRequest
  | lostReply
deriving DecidableEq, Repr

/-- The errors that the client returns (clientgen.go:124-133): "Response object is nil", or
that of the context. -/
inductive Err where
  | responseIsNil
  | deadlineExceeded
deriving DecidableEq, Repr

/-- What the caller of the client sees. -/
inductive Reply where
  | results (vs : List (Str × Val))
  | error (e : Err)
  | panic

/-- The implementation of a method: it changes its state, and returns results or an error with
some text. -/
scoped notation "Handler" σ => σ → List (List Char × Val) → σ × Except (List Char) (List (List Char × Val))

/-- The service and the connection of a client: the state of the service, the number of
replies that came late and are still to be read, and whether the connection is broken. -/
structure Link (σ : Type) where
  svc : σ
  unread : Nat
  broken : Bool
deriving DecidableEq, Repr

/-- The service and connection after a call, the calls that the implementation saw, and the
reply. -/
structure Served (σ : Type) where
  link : Link σ
  calls : List (List (Str × Val))
  reply : Reply

/-- clientgen.go:124-133: an error of the thrift client is replaced by that of the context;
without one the response is nil. -/
def clientError (ctxErr : Option Err) : Reply := .error (ctxErr.getD .responseIsNil)

/-- clientgen.go:123-137: the client reads a reply; `ctxErr` is the error of the context.
github.com/apache/thrift (not part of /repo), TStandardClient.Recv, reads the next reply of the
connection and fails if it does not belong to the call.  Simplified: such a reply is then
consumed as a whole. -/
def receive (file : File) (n : Nat) (rsp : List Field) (unread : Nat)
    (r : Except (List Char) (List (Str × Val))) : Option Reply :=
  if unread ≠ 0 then some (clientError none)
  else match r with
    | .error _ => some (clientError none)
    | .ok msg => match unpack file n rsp msg with
      | .stuck => none
      | .panic => some .panic
      | .ok vs => some (.results vs)

/-- servergen.go:109-118: the server unpacks the request, calls the implementation and packs its
results.  `none` in the middle: it panics. -/
def serve {σ : Type} (file : File) (n : Nat) (req rsp : List Field) (impl : Handler σ) (s : σ)
    (msg : List (Str × Val)) :
    Option (σ × List (List (Str × Val)) × Option (Except (List Char) (List (Str × Val)))) :=
  match unpack file n req msg with
  | .stuck => none
  | .panic => some (s, [], none)
  | .ok args => match impl s args with
    | (s', .error e) => some (s', [args], some (.error e))
    | (s', .ok rets) => match pack file n rsp rets with
      | .stuck => none
      | .panic => some (s', [args], none)
      | .ok rmsg => some (s', [args], some (.ok rmsg))

/-- clientgen.go:115-138 and servergen.go:109-118: a call of a method whose request has the fields
`req` and whose response has the fields `rsp`.  A server that panics closes the connection.
The generated client never connects again (clientgen.go:77-109 is the only place).  `none`: not
enough fuel. -/
def remoteCall {σ : Type} (file : File) (n : Nat) (req rsp : List Field) (impl : Handler σ) (fate : Fate)
    (l : Link σ) (args : List (Str × Val)) : Option (Served σ) :=
  match pack file n req args with
  | .stuck => none
  | .panic => some ⟨l, [], .panic⟩
  | .ok msg =>
    if l.broken then some ⟨l, [], clientError none⟩
    else match fate with
      | .lostRequest => some ⟨{ l with broken := true }, [], clientError none⟩
      | fate => match serve file n req rsp impl l.svc msg with
        | none => none
        | some (s, calls, none) => some ⟨{ l with svc := s, broken := true }, calls, clientError none⟩
        | some (s, calls, some r) => match fate with
          | .lostReply => some ⟨{ l with svc := s, broken := true }, calls, clientError none⟩
          | .late c =>
            -- an older reply is there at once
            if l.unread ≠ 0 then some ⟨{ l with svc := s }, calls, clientError none⟩
            else some ⟨{ l with svc := s, unread := l.unread + 1 }, calls,
              clientError (if c then some .deadlineExceeded else none)⟩
          | _ => (receive file n rsp l.unread r).map fun reply =>
            -- one reply is added and one is read
            ⟨{ l with svc := s }, calls, reply⟩

/-- A method of the service with its implementation. -/
structure Op (σ : Type) where
  req : List Field
  rsp : List Field
  impl : Handler σ
  fate : Fate
  args : List (Str × Val)

/-- Calls one after the other: what became of each of them. -/
def calls {σ : Type} (file : File) (n : Nat) : Link σ → List (Op σ) → Option (List (Served σ))
  | _, [] => some []
  | l, o :: os => match remoteCall file n o.req o.rsp o.impl o.fate l o.args with
    | none => none
    | some r => (calls file n r.link os).map (r :: ·)

/-- A client that has just connected (clientgen.go:77-109). -/
def connected {σ : Type} (s : σ) : Link σ := ⟨s, 0, false⟩

end Verif.Thrift
