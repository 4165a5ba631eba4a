/-
Model of /repo/plugins/grpc/grpccodegen: protogen.go (message declarations),
marshallgen.go (the generated conversion functions), clientgen.go and servergen.go (the
generated client and server methods), with the part of
/repo/plugins/golang/goparser/parser.go that reads struct declarations.
The generated statements are values of the types `MStmt` and `UStmt`; what they do is given
by `marshal` and `unmarshal`, and whether protoc and the Go compiler accept them by
`File.accepted`.
Not modelled: the wire format.  A message arrives as it was sent; nil and empty slices and
maps are identified, which protobuf does too; strings are valid UTF-8; floating point numbers
are their bits; aliasing between values is ignored.  Identifiers are ASCII.
-/
namespace Verif.Grpc

scoped notation "Str" => List Char

/-- Go's basic types (plugins/golang/gocode/typename.go, basicTypes). -/
inductive Basic where
  | bool | string | int | int8 | int16 | int32 | int64
  | uint | uint8 | uint16 | uint32 | uint64 | byte | rune
  | float32 | float64 | complex64 | complex128 | uintptr | error
deriving DecidableEq, Repr

/-- A user type: its package and name. -/
structure UserTy where
  pkg : Str
  name : Str
deriving DecidableEq, Repr

/-- The Go types of arguments, results and fields (gocode.TypeName).  All other types (any,
interfaces, channels, functions, …) are `other`. -/
inductive Ty where
  | user (t : UserTy)
  | basic (b : Basic)
  | pointer (t : Ty)
  | map (k v : Ty)
  | slice (t : Ty)
  | other
deriving DecidableEq, Repr

/-! ### Reading struct declarations -/

/-- One line of a struct declaration: its names (none for an embedded type) and type. -/
structure FieldDecl where
  names : List Str
  ty : Ty
deriving DecidableEq, Repr

/-- A field of a parsed struct: `none` for an embedded type. -/
structure ParsedField where
  name : Option Str
  ty : Ty
deriving DecidableEq, Repr

/-- goparser/parser.go:567-583: the fields of a struct.  Of several names in one line only
the first one is read. -/
def parseFields (ds : List FieldDecl) : List ParsedField :=
  ds.map fun d => ⟨d.names.head?, d.ty⟩

/-- The structs of the application's modules. -/
scoped notation "Structs" => UserTy → Option (List FieldDecl)

/-! ### Message declarations -/

/-- The scalar types of proto3 that the code uses; `uint8` does not exist. -/
inductive Scalar where
  | bool | string | sint32 | sint64 | uint32 | uint64 | uint8 | float | double
deriving DecidableEq, Repr

/-- protogen.go:324-332 (basicToGrpc). -/
def basicToGrpc : Basic → Option Scalar
  | .bool => some .bool
  | .string => some .string
  | .int => some .sint64
  | .int8 => some .sint32
  | .int16 => some .sint32
  | .int32 => some .sint32
  | .int64 => some .sint64
  | .uint => some .uint64
  | .uint8 => some .uint32
  | .uint16 => some .uint32
  | .uint32 => some .uint32
  | .uint64 => some .uint64
  | .byte => some .uint8
  | .rune => some .uint8
  | .float32 => some .float
  | .float64 => some .double
  | _ => none

/-- protogen.go:334-342 (grpcToBasic).  `float` and `double` are missing from the map: the
name of the Go type is empty. -/
def grpcToBasic : Scalar → Option Basic
  | .bool => some .bool
  | .string => some .string
  | .sint32 => some .int32
  | .sint64 => some .int64
  | .uint32 => some .uint32
  | .uint64 => some .uint64
  | .uint8 => some .byte
  | .float => none
  | .double => none

/-- The type in the .proto file. -/
inductive ProtoTy where
  | scalar (s : Scalar)
  | message (name : Str)
  | bytes
  | map (k : Scalar) (v : ProtoTy)
  | repeated (t : ProtoTy)
deriving DecidableEq, Repr

/-- The Go type that belongs to it (gRPCField.GRPCType).  A basic type may have no name. -/
inductive GTy where
  | user (name : Str)
  | basic (b : Option Basic)
  | pointer (t : GTy)
  | map (k : Ty) (v : GTy)
  | slice (t : GTy)
deriving DecidableEq, Repr

/-- protogen.go:107-113 (gRPCField). -/
structure Field where
  src : Ty
  proto : ProtoTy
  grpc : GTy
  name : Str
  position : Nat
deriving DecidableEq, Repr

/-- protogen.go:136-145 (gRPCProtoBuilder): the name, and the messages of the structs. -/
structure Builder where
  name : Str
  structs : List (UserTy × List Field)
deriving DecidableEq, Repr

/-- The name of the message of a struct (protogen.go:298). -/
def msgName (base : Str) (t : UserTy) : Str := base ++ '_' :: t.name

/-- A result, an error, or not enough fuel. -/
inductive Res (α : Type) where
  | ok (a : α)
  | error
  | stuck
deriving DecidableEq, Repr

/-- protogen.go:346-365 (getMapKeyType): all scalars but `uint8`, `float` and `double`. -/
def getMapKeyType : Ty → Option Scalar
  | .basic b => match basicToGrpc b with
    | some s => match s with
      | .uint8 | .float | .double => none
      | _ => some s
    | none => none
  | _ => none

/-- Looks up a struct's entry in the builder. -/
def Builder.find (b : Builder) (t : UserTy) : Option (List Field) :=
  (b.structs.find? fun e => e.1 = t).map (·.2)

/-- protogen.go:312-318: a field is appended to the message of `t`. -/
def Builder.append (b : Builder) (t : UserTy) (src : Ty) (p : ProtoTy) (g : GTy) (name : Str) : Builder :=
  { b with structs := b.structs.map fun e =>
      if e.1 = t then (e.1, e.2 ++ [⟨src, p, g, name, e.2.length + 1⟩]) else e }

/-- protogen.go:300-319: the loop over the fields of a struct, given how types are
translated. -/
def addFields (rec : Builder → Ty → Res (Builder × ProtoTy × GTy)) (t : UserTy) :
    List ParsedField → Builder → Res Builder
  | [], b => .ok b
  | ⟨none, _⟩ :: fs, b => addFields rec t fs b
  | ⟨some name, ty⟩ :: fs, b =>
    match rec b ty with
    | .ok (b, p, g) => addFields rec t fs (b.append t ty p g name)
    | .error => .error
    | .stuck => .stuck

/-- protogen.go:369-433 (getGRPCType) and 274-322 (GetOrAddMessage). -/
def getGRPCType (env : Structs) : Nat → Builder → Ty → Res (Builder × ProtoTy × GTy)
  | 0, _, _ => .stuck
  | n + 1, b, .user t =>
    let res := (b, ProtoTy.message (msgName b.name t), GTy.user (msgName b.name t))
    match b.find t with
    | some _ => .ok res
    | none =>
      match env t with
      | none => .error
      | some ds =>
        match addFields (getGRPCType env n) t (parseFields ds)
            { b with structs := b.structs ++ [(t, [])] } with
        | .ok b' => .ok (b', res.2)
        | .error => .error
        | .stuck => .stuck
  | _ + 1, b, .basic s =>
    match basicToGrpc s with
    | some p => .ok (b, .scalar p, .basic (grpcToBasic p))
    | none => .error
  | n + 1, b, .pointer t =>
    match getGRPCType env n b t with
    | .ok (b, p, g) => .ok (b, p, .pointer g)
    | .error => .error
    | .stuck => .stuck
  | n + 1, b, .map k v =>
    match getMapKeyType k with
    | none => .error
    | some kp =>
      match getGRPCType env n b v with
      | .ok (b, p, g) => .ok (b, .map kp p, .map k g)
      | .error => .error
      | .stuck => .stuck
  | n + 1, b, .slice t =>
    if t = .basic .byte then .ok (b, .bytes, .slice (.basic (some .byte)))
    else match t with
      | .map _ _ => .error
      | t => match getGRPCType env n b t with
        | .ok (b, p, g) => .ok (b, .repeated p, .slice g)
        | .error => .error
        | .stuck => .stuck
  | _ + 1, _, .other => .error

/-- protogen.go:228-231: the name of an argument or result. -/
def argName (i : Nat) (name : Str) : Str :=
  if name = [] then 'r' :: 'e' :: 't' :: (toString i).toList else name

/-- protogen.go:222-243 (makeFieldList); `i` is the number of variables before. -/
def makeFieldList (env : Structs) (n : Nat) : Nat → Builder → List (Str × Ty) → Res (Builder × List Field)
  | _, b, [] => .ok (b, [])
  | i, b, (name, ty) :: vars =>
    match getGRPCType env n b ty with
    | .ok (b, p, g) =>
      match makeFieldList env n (i + 1) b vars with
      | .ok (b, fs) => .ok (b, ⟨ty, p, g, argName i name, i + 1⟩ :: fs)
      | .error => .error
      | .stuck => .stuck
    | .error => .error
    | .stuck => .stuck

/-! ### The generated statements -/

/-- `strings.Title` of a Go identifier: the first letter is made a capital. -/
def title : Str → Str
  | [] => []
  | c :: cs => (if 'a' ≤ c ∧ c ≤ 'z' then Char.ofNat (c.toNat - 32) else c) :: cs

/-- A statement of a `marshall` function. `f` is the field, `T` a message. -/
inductive MStmt where
  /-- `msg.F = new(T).marshall(&obj.f)` -/
  | message (f T : Str)
  /-- `msg.F = new(T).marshall(obj.f)` -/
  | pointer (f T : Str)
  /-- `msg.F = B(obj.f)`; without `B`, `msg.F = (obj.f)` -/
  | convert (f : Str) (b : Option Basic)
  /-- `msg.F = B(*obj.f)` -/
  | deref (f : Str) (b : Option Basic)
  /-- `msg.F = obj.f` -/
  | assign (f : Str)
  /-- `msg.F = make(map[K]*T); for k, v := range obj.f { msg.F[k] = new(T).marshall(&v) }` -/
  | mapOf (f : Str) (k : Ty) (T : Str)
  /-- `for _, v := range obj.f { msg.F = append(msg.F, new(T).marshall(&v)) }` -/
  | sliceOf (f T : Str)
deriving DecidableEq, Repr

/-- marshallgen.go:118-171 (Marshall); `none` is an error. -/
def Field.marshall (f : Field) : Option MStmt :=
  match f.grpc with
  | .user t => some (.message f.name t)
  | .basic b => some (.convert f.name b)
  | .pointer (.user t) => some (.pointer f.name t)
  | .pointer (.basic b) => some (.deref f.name b)
  | .pointer _ => none
  | .map k (.user t) => some (.mapOf f.name k t)
  | .map _ (.basic _) => some (.assign f.name)
  | .map _ _ => none
  | .slice (.user t) => some (.sliceOf f.name t)
  | .slice (.basic _) => some (.assign f.name)
  | .slice _ => none

/-- A statement of an `unmarshall` function. -/
inductive UStmt where
  /-- `msg.F.unmarshall(&obj.f)` -/
  | message (f : Str)
  /-- `msg.F.unmarshall(obj.f)` -/
  | pointer (f : Str)
  /-- `obj.f = B(msg.F)` -/
  | convert (f : Str) (b : Ty)
  /-- `obj.f = &*B(msg.F)` -/
  | addrOf (f : Str) (b : Ty)
  /-- `obj.f = msg.F` -/
  | assign (f : Str)
  /-- `msg.F = obj.f` -/
  | assignBack (f : Str)
  /-- `obj.f = make(M); for k, v := range msg.F { objv := obj.f[k]; v.unmarshall(&objv) }` -/
  | mapOf (f : Str)
  /-- `obj.f = make(S, len(msg.F)); for i, v := range msg.F { v.unmarshall(&obj.f[i]) }` -/
  | sliceOf (f : Str)
deriving DecidableEq, Repr

/-- marshallgen.go:173-229 (Unmarshall); `none` is an error. -/
def Field.unmarshall (f : Field) : Option UStmt :=
  match f.grpc with
  | .user _ => some (.message f.name)
  | .basic _ => some (.convert f.name f.src)
  | .pointer (.user _) => some (.pointer f.name)
  | .pointer (.basic _) => some (.addrOf f.name f.src)
  | .pointer _ => none
  | .map _ (.user _) => some (.mapOf f.name)
  | .map _ (.basic _) => some (.assignBack f.name)
  | .map _ _ => none
  | .slice (.user _) => some (.sliceOf f.name)
  | .slice (.basic _) => some (.assign f.name)
  | .slice _ => none

/-! ### protoc and the Go compiler -/

/-- protoc accepts the type of a field. -/
def protoOk : ProtoTy → Bool
  | .scalar s => s ≠ .uint8
  | .message _ => true
  | .bytes => true
  | .map _ (.scalar s) => s ≠ .uint8
  | .map _ (.message _) => true
  | .map _ .bytes => true
  | .map _ _ => false
  | .repeated (.scalar s) => s ≠ .uint8
  | .repeated (.message _) => true
  | .repeated .bytes => true
  | .repeated _ => false

/-- The Go type that protoc-gen-go uses for a scalar. -/
def scalarGo : Scalar → Option Basic
  | .bool => some .bool
  | .string => some .string
  | .sint32 => some .int32
  | .sint64 => some .int64
  | .uint32 => some .uint32
  | .uint64 => some .uint64
  | .float => some .float32
  | .double => some .float64
  | .uint8 => none

def isLower (c : Char) : Bool := 'a' ≤ c && c ≤ 'z'
def isDigit (c : Char) : Bool := '0' ≤ c && c ≤ '9'

/-- The first character is a lower case letter. -/
def startsLower : Str → Bool
  | c :: _ => isLower c
  | [] => false

/-- GoCamelCase in google.golang.org/protobuf/internal/strs (not part of /repo), for names
without dots.  The first argument says whether this is the first character, the second
whether the previous character belongs to a word that has begun (so that a lower case letter
is kept). -/
def goCamelCase : Bool → Bool → Str → Str
  | _, _, [] => []
  | first, letter, c :: cs =>
    if letter && isLower c then c :: goCamelCase false true cs
    else if c = '_' && first then 'X' :: goCamelCase false false cs
    else if c = '_' && startsLower cs then
      goCamelCase false false cs
    else if isDigit c then c :: goCamelCase false false cs
    else (if isLower c then Char.ofNat (c.toNat - 32) else c) :: goCamelCase false true cs

/-- The prefix of the names of getters. -/
def getter (s : Str) : Str := 'G' :: 'e' :: 't' :: s

/-- google.golang.org/protobuf/compiler/protogen (not part of /repo), newMessage: underscores
are added to a name until neither it nor its getter is in use.  The fuel suffices when it is
more than twice the number of names in use. -/
def unique (used : List Str) : Nat → Str → Option Str
  | 0, _ => none
  | n + 1, s => if s ∈ used ∨ getter s ∈ used then unique used n (s ++ ['_']) else some s

/-- The names that protoc-gen-go gives to the fields of a message. -/
def goNames : List Str → List Str → Option (List Str)
  | _, [] => some []
  | used, x :: xs =>
    match unique used (2 * used.length + 1) (goCamelCase true false x) with
    | none => none
    | some y => (goNames (y :: getter y :: used) xs).map (y :: ·)

/-- The names that a message type uses itself. -/
def reserved : List Str :=
  ["Reset", "String", "ProtoMessage", "Marshal", "Unmarshal", "ExtensionRangeArray",
    "ExtensionMap", "Descriptor"].map String.toList

/-- Two basic types are the same for the Go compiler. -/
def sameGo (a b : Basic) : Bool :=
  let norm : Basic → Basic := fun | .byte => .uint8 | .rune => .int32 | b => b
  norm a = norm b

/-- `e` of type `src` may be assigned to a field whose scalar type is `s`. -/
def assignable (src : Ty) (s : Scalar) : Bool :=
  match src, scalarGo s with
  | .basic b, some g => sameGo b g
  | _, _ => false

/-- The two statements of a field are well typed. -/
def goOk (f : Field) : Bool :=
  match f.grpc, f.proto with
  | .user _, _ => true
  | .basic b, .scalar s =>
    (match b with
      | some b => decide (scalarGo s = some b)
      | none => assignable f.src s)
  | .pointer (.user _), _ => true
  -- `&*B(x)`, where `x` is no pointer
  | .pointer _, _ => false
  | .map k (.user _), .map ks _ => assignable k ks
  | .map k (.basic _), .map ks (.scalar vs) =>
    (match f.src with
      | .map _ v => assignable k ks && assignable v vs
      | _ => false)
  | .map _ _, _ => false
  | .slice (.user _), _ => true
  | .slice (.basic _), .bytes => decide (f.src = .slice (.basic .byte))
  | .slice (.basic _), .repeated (.scalar s) =>
    (match f.src with
      | .slice e => assignable e s
      | _ => false)
  | .slice _, _ => false
  | _, _ => false

/-- A message that protoc accepts, and for which the conversion functions compile: the
statements use the names that protoc-gen-go chose. -/
def messageOk (fs : List Field) : Bool :=
  decide (fs.map (·.name)).Nodup &&
  decide (goNames reserved (fs.map (·.name)) = some (fs.map fun f => title f.name)) &&
  fs.all fun f => protoOk f.proto && goOk f

/-- The name of a field that other packages can use. -/
def exported : Str → Bool
  | c :: _ => 'A' ≤ c && c ≤ 'Z'
  | [] => false

/-- The messages of a file: methods with their requests and responses, and structs. -/
structure File where
  builder : Builder
  methods : List (Str × List Field × List Field)
deriving Repr

/-- protogen.go:216-217. -/
def requestName (svc m : Str) : Str := svc ++ '_' :: m ++ "_Request".toList
def responseName (svc m : Str) : Str := svc ++ '_' :: m ++ "_Response".toList

/-- A method of a service interface (gocode.Func): arguments and results. -/
structure Method where
  name : Str
  args : List (Str × Ty)
  rets : List (Str × Ty)
deriving DecidableEq, Repr

/-- protogen.go:254-272 (AddService).  The methods are a Go map: they come in any order. -/
def addService (env : Structs) (n : Nat) : Builder → List Method → Res File
  | b, [] => .ok ⟨b, []⟩
  | b, m :: ms =>
    match makeFieldList env n 0 b m.args with
    | .ok (b, req) => (match makeFieldList env n 0 b m.rets with
      | .ok (b, rsp) => (match addService env n b ms with
        | .ok file => .ok { file with methods := (m.name, req, rsp) :: file.methods }
        | .error => .error
        | .stuck => .stuck)
      | .error => .error
      | .stuck => .stuck)
    | .error => .error
    | .stuck => .stuck

/-- All lists of fields of a file. -/
def File.fieldLists (file : File) : List (List Field) :=
  file.methods.flatMap (fun m => [m.2.1, m.2.2]) ++ file.builder.structs.map (·.2)

/-- protogen.go:44-73: the declarations and the conversion functions are generated. -/
def generate (env : Structs) (n : Nat) (base : Str) (ms : List Method) : Res File :=
  match addService env n ⟨base, []⟩ ms with
  | .ok file =>
    if file.fieldLists.all fun fs => fs.all fun f => f.marshall.isSome && f.unmarshall.isSome then
      .ok file
    else .error
  | .error => .error
  | .stuck => .stuck

/-- The names of all messages. -/
def File.names (file : File) (svc : Str) : List Str :=
  file.methods.flatMap (fun m => [requestName svc m.1, responseName svc m.1]) ++
    file.builder.structs.map fun e => msgName file.builder.name e.1

/-- protoc and the Go compiler accept the file: no two messages have the same name, and the
fields of structs are exported (`svc` is the name of the service interface). -/
def File.accepted (file : File) (svc : Str) : Bool :=
  decide (file.names svc).Nodup &&
  file.fieldLists.all messageOk &&
  (file.builder.structs.all fun e => e.2.all fun f => exported f.name) &&
  -- the receiver of the functions is called `msg`
  file.methods.all fun m => (m.2.1 ++ m.2.2).all fun f => f.name ≠ "msg".toList

/-! ### Execution -/

/-- A value of a basic type; floating point numbers are given by their bits. -/
inductive Prim where
  | bool (b : Bool)
  | str (s : Str)
  | int (i : Int)
  | float (bits : Nat)
deriving DecidableEq, Repr

/-- Values, and messages.  A struct lists its fields; a field that is not listed has its
zero value. -/
inductive Val where
  | prim (p : Prim)
  | struct (fields : List (Str × Val))
  | ptr (v : Val)
  | nil
  | map (entries : List (Prim × Val))
  | slice (elems : List Val)

/-- The value of a field. -/
def get (f : Str) : List (Str × Val) → Option Val
  | [] => none
  | e :: l => if e.1 = f then some e.2 else get f l

/-- Sets a field. -/
def put (f : Str) (v : Val) : List (Str × Val) → List (Str × Val)
  | [] => [(f, v)]
  | e :: l => if e.1 = f then (f, v) :: l else e :: put f v l

/-- The number of bits of an integer type, and whether it is signed. -/
def intBits : Basic → Option (Nat × Bool)
  | .int => some (64, true)
  | .int8 => some (8, true)
  | .int16 => some (16, true)
  | .int32 => some (32, true)
  | .int64 => some (64, true)
  | .rune => some (32, true)
  | .uint => some (64, false)
  | .uint8 => some (8, false)
  | .uint16 => some (16, false)
  | .uint32 => some (32, false)
  | .uint64 => some (64, false)
  | .byte => some (8, false)
  | _ => none

/-- Conversion of an integer to a type with `n` bits. -/
def wrap (n : Nat) (signed : Bool) (i : Int) : Int :=
  let m := i % (2 ^ n : Int)
  if signed ∧ (2 ^ (n - 1) : Int) ≤ m then m - 2 ^ n else m

/-- The conversion `B(x)`, for values of a type of the same kind. -/
def convert (b : Basic) : Prim → Prim
  | .int i => match intBits b with
    | some (n, s) => .int (wrap n s i)
    | none => .int i
  | p => p

/-- What a piece of code does. -/
inductive Out (α : Type) where
  | ok (a : α)
  | panic
  | stuck

/-- Goes on with the value. -/
def Out.map {α β : Type} (g : α → β) : Out α → Out β
  | .ok a => .ok (g a)
  | .panic => .panic
  | .stuck => .stuck

/-- The functions of the generated file: the fields of each message. -/
scoped notation "Code" => List Char → Option (List Field)

/-- The elements of a slice or map, one after the other. -/
def each {α β : Type} (g : α → Out β) : List α → Out (List β)
  | [] => .ok []
  | a :: l => match g a with
    | .ok b => match each g l with
      | .ok bs => .ok (b :: bs)
      | .panic => .panic
      | .stuck => .stuck
    | .panic => .panic
    | .stuck => .stuck

/-- One statement of a `marshall` function; `call T v` is `new(T).marshall(&v)`, and
`obj` the object's fields.  Statements that do not compile panic here. -/
def execM (call : Str → Val → Out Val) (obj : List (Str × Val)) : MStmt → Out (Str × Val)
  | .message f T => match get f obj with
    | some v => (call T v).map fun m => (title f, .ptr m)
    | none => .panic
  | .pointer f T => match get f obj with
    | some (.ptr v) => (call T v).map fun m => (title f, .ptr m)
    | some .nil => (call T .nil).map fun m => (title f, .ptr m)
    | _ => .panic
  | .convert f b => match get f obj, b with
    | some (.prim p), some b => .ok (title f, .prim (convert b p))
    | some (.prim p), none => .ok (title f, .prim p)
    | _, _ => .panic
  | .deref f b => match get f obj, b with
    | some (.ptr (.prim p)), some b => .ok (title f, .prim (convert b p))
    | some (.ptr (.prim p)), none => .ok (title f, .prim p)
    | _, _ => .panic
  | .assign f => match get f obj with
    | some v => .ok (title f, v)
    | none => .panic
  | .mapOf f _ T => match get f obj with
    | some (.map es) =>
      (each (fun e : Prim × Val => (call T e.2).map fun m => (e.1, Val.ptr m)) es).map fun ms =>
        (title f, .map ms)
    | _ => .panic
  | .sliceOf f T => match get f obj with
    | some (.slice vs) => (each (fun v => (call T v).map Val.ptr) vs).map fun ms => (title f, .slice ms)
    | _ => .panic

/-- The statements of a `marshall` function, one after the other; `msg` is the message so
far. -/
def execAllM (call : Str → Val → Out Val) (obj : List (Str × Val)) :
    List Field → List (Str × Val) → Out (List (Str × Val))
  | [], msg => .ok msg
  | f :: fs, msg => match f.marshall with
    | none => .panic
    | some st => match execM call obj st with
      | .ok (g, v) => execAllM call obj fs (put g v msg)
      | .panic => .panic
      | .stuck => .stuck

/-- marshallgen.go:66-71: `new(T).marshall(obj)`; a nil `obj` is dereferenced by the first
statement. -/
def marshal (code : Code) : Nat → Str → Val → Out Val
  | 0, _, _ => .stuck
  | n + 1, T, v => match code T, v with
    | some fs, .struct obj => (match execAllM (marshal code n) obj fs [] with
      | .ok msg => .ok (.struct msg)
      | .panic => .panic
      | .stuck => .stuck)
    | some [], .nil => .ok (.struct [])
    | _, _ => .panic

/-- `v.unmarshall(&x)`, for an element `v` of a slice or map, and a zero `x`. -/
def unmarshallElem (call : Str → Val → Val → Out Val) (T : Str) : Val → Out Val
  | .ptr m => call T m (.struct [])
  | _ => .panic

/-- One statement of an `unmarshall` function: the fields of the object afterwards.
`call T m v` is `m.unmarshall(&v)` for a message of type `T`; it returns the new `v`. -/
def execU (call : Str → Val → Val → Out Val) (f : Field) (msg obj : List (Str × Val)) :
    UStmt → Out (List (Str × Val))
  | .message x => match get (title x) msg, f.grpc with
    | some (.ptr m), .user T => (call T m ((get x obj).getD (.struct []))).map fun v => put x v obj
    | _, _ => .panic
  | .pointer x => match get (title x) msg, f.grpc with
    | some (.ptr m), .pointer (.user T) => (match (get x obj).getD .nil with
      | .ptr v => (call T m v).map fun v => put x (.ptr v) obj
      | v => (call T m v).map fun v => put x v obj)
    | _, _ => .panic
  | .convert x ty => match get (title x) msg, ty with
    | some (.prim p), .basic b => .ok (put x (.prim (convert b p)) obj)
    | _, _ => .panic
  | .addrOf x ty => match get (title x) msg, ty with
    | some (.prim p), .basic b => .ok (put x (.ptr (.prim (convert b p))) obj)
    | _, _ => .panic
  | .assign x => match get (title x) msg with
    | some v => .ok (put x v obj)
    | none => .panic
  | .assignBack _ => .ok obj
  | .mapOf x => match get (title x) msg, f.grpc with
    | some (.map es), .map _ (.user T) =>
      -- `objv` is a copy of the element, which is thrown away
      (each (fun e : Prim × Val => unmarshallElem call T e.2) es).map fun _ => put x (.map []) obj
    | _, _ => .panic
  | .sliceOf x => match get (title x) msg, f.grpc with
    | some (.slice ms), .slice (.user T) =>
      (each (unmarshallElem call T) ms).map fun vs => put x (.slice vs) obj
    | _, _ => .panic

/-- The statements of an `unmarshall` function, one after the other. -/
def execAllU (call : Str → Val → Val → Out Val) (msg : List (Str × Val)) :
    List Field → List (Str × Val) → Out (List (Str × Val))
  | [], obj => .ok obj
  | f :: fs, obj => match f.unmarshall with
    | none => .panic
    | some st => match execU call f msg obj st with
      | .ok obj => execAllU call msg fs obj
      | .panic => .panic
      | .stuck => .stuck

/-- marshallgen.go:74-79: `m.unmarshall(obj)`; a nil `obj` is dereferenced by the first
statement. -/
def unmarshal (code : Code) : Nat → Str → Val → Val → Out Val
  | 0, _, _, _ => .stuck
  | n + 1, T, m, v => match code T, m, v with
    | some fs, .struct msg, .struct obj => (match execAllU (unmarshal code n) msg fs obj with
      | .ok obj => .ok (.struct obj)
      | .panic => .panic
      | .stuck => .stuck)
    | some [], _, .nil => .ok .nil
    | _, _, _ => .panic

/-- The functions that the file has for the structs (marshallgen.go:64-80). -/
def Builder.code (b : Builder) : Code := fun T =>
  (b.structs.find? fun e => msgName b.name e.1 = T).map (·.2)

/-- marshallgen.go:22-31 and 44-53: packing the arguments (or results) of a method. -/
def pack (b : Builder) (n : Nat) (fs : List Field) (args : List (Str × Val)) : Out (List (Str × Val)) :=
  execAllM (marshal b.code n) args fs []

/-- marshallgen.go:33-41 and 55-62: unpacking them. -/
def unpack (b : Builder) (n : Nat) (fs : List Field) (msg : List (Str × Val)) : Out (List (Str × Val)) :=
  execAllU (unmarshal b.code n) msg fs []

/-! ### The generated client and server -/

/-- What the network does to a call: deliver it, lose the request, or lose the reply (a time
out may be any of the two). -/
inductive Net where
  | deliver | lostRequest | lostReply
deriving DecidableEq, Repr

/-- What the caller of the client sees. -/
inductive Reply where
  | results (vs : List (Str × Val))
  | error
  | panic

/-- The state of the service after a call (`none` if its process crashed), the calls that its
implementation saw, and the reply. -/
structure Served (σ : Type) where
  state : Option σ
  calls : List (List (Str × Val))
  reply : Reply

/-- The implementation of a method: it changes its state, and returns results or an error. -/
scoped notation "Impl" σ => σ → List (List Char × Val) → σ × Option (List (List Char × Val))

/-- clientgen.go:81-100 and servergen.go:92-104: a call of a method whose request has the
fields `req` and whose response has the fields `rsp`.  `none`: not enough fuel. -/
def remoteCall {σ : Type} (b : Builder) (n : Nat) (req rsp : List Field) (impl : Impl σ) (net : Net)
    (s : σ) (args : List (Str × Val)) : Option (Served σ) :=
  match pack b n req args with
  | .stuck => none
  | .panic => some ⟨some s, [], .panic⟩
  | .ok msg => match net with
    | .lostRequest => some ⟨some s, [], .error⟩
    | net => match unpack b n req msg with
      | .stuck => none
      | .panic => some ⟨none, [], .error⟩
      | .ok args' => match impl s args' with
        | (s', none) => some ⟨some s', [args'], .error⟩
        | (s', some rets) => match pack b n rsp rets with
          | .stuck => none
          | .panic => some ⟨none, [args'], .error⟩
          | .ok rmsg => match net with
            | .lostReply => some ⟨some s', [args'], .error⟩
            | _ => match unpack b n rsp rmsg with
              | .stuck => none
              | .panic => some ⟨some s', [args'], .panic⟩
              | .ok rets' => some ⟨some s', [args'], .results rets'⟩

end Verif.Grpc
