import Verif.Grpc.Props
/-
C51: interfaces for which the generator reports no error, but whose code does not compile, or
loses values, or crashes.
-/
namespace Verif.Grpc

/-- A file for one method with one argument. -/
def oneArg (env : UserTy → Option (List FieldDecl)) (x : List Char) (τ : Ty) : Res File :=
  generate env 9 "Svc".toList [⟨"Do".toList, [(x, τ)], []⟩]

theorem typed_one {env : UserTy → Option (List FieldDecl)} {x : List Char} {τ : Ty} {v : Val}
    (h : HasType env τ v) : Typed env [(x, τ)] [(x, v)] := by
  refine ⟨rfl, ?_⟩
  intro y σ w h1 h2
  simp only [List.mem_singleton, Prod.mk.injEq] at h1 h2
  obtain ⟨rfl, rfl⟩ := h1
  obtain ⟨_, rfl⟩ := h2
  exact h

/-- **C51** is false for maps (marshallgen.go:199-207).  A method with an argument of type
`map[string]string`: the file compiles, but the statement that should read the map from the
message writes it into the message instead.  No message leads to the client's map. -/
theorem C51_map_refuted : ∃ (file : File) (req : List Field) (args : List (List Char × Val)),
    oneArg (fun _ => none) "m".toList (.map (.basic .string) (.basic .string)) = .ok file ∧
    file.accepted "Svc".toList = true ∧ ("Do".toList, req, []) ∈ file.methods ∧
    Typed (fun _ => none) [("m".toList, .map (.basic .string) (.basic .string))] args ∧
    ∀ n msg, unpack file.builder n req msg ≠ .ok args := by
  let fs : List Field := [⟨.map (.basic .string) (.basic .string), .map .string (.scalar .string),
    .map (.basic .string) (.basic (some .string)), "m".toList, 1⟩]
  have hg : oneArg (fun _ => none) "m".toList (.map (.basic .string) (.basic .string)) =
      .ok ⟨⟨"Svc".toList, []⟩, [("Do".toList, fs, [])]⟩ := by decide +kernel
  have ha : (⟨⟨"Svc".toList, []⟩, [("Do".toList, fs, [])]⟩ : File).accepted "Svc".toList = true := by
    decide +kernel
  refine ⟨_, fs, [("m".toList, .map [(.str "a".toList, .prim (.str "b".toList))])], hg, ha, List.mem_cons_self,
    typed_one (.map (by simp) ?_ ?_), ?_⟩
  · intro k v h
    simp only [List.mem_singleton, Prod.mk.injEq] at h
    rw [h.1]
    exact .prim trivial
  · intro k v h
    simp only [List.mem_singleton, Prod.mk.injEq] at h
    rw [h.2]
    exact .prim trivial
  · intro n msg hu
    have := C51_maps_are_lost (m := ⟨"Do".toList, [("m".toList, .map (.basic .string) (.basic .string))], []⟩)
      hg ha List.mem_cons_self List.mem_cons_self (x := "m".toList) List.mem_cons_self hu
    simp [get] at this

/-- **C51** is false for maps of structs (marshallgen.go:198-205).  The elements are unpacked
into a copy that is thrown away. -/
theorem C51_map_of_structs_refuted : ∃ (file : File) (req : List Field) (args : List (List Char × Val)),
    oneArg exEnv "m".toList (.map (.basic .string) (.user exUser)) = .ok file ∧
    file.accepted "Svc".toList = true ∧ ("Do".toList, req, []) ∈ file.methods ∧
    Typed exEnv [("m".toList, .map (.basic .string) (.user exUser))] args ∧
    ∀ n msg, unpack file.builder n req msg ≠ .ok args := by
  let fs : List Field := [⟨.map (.basic .string) (.user exUser), .map .string (.message "Svc_User".toList),
    .map (.basic .string) (.user "Svc_User".toList), "m".toList, 1⟩]
  let us : List Field := [⟨.basic .string, .scalar .string, .basic (some .string), "Name".toList, 1⟩,
    ⟨.basic .uint8, .scalar .uint32, .basic (some .uint32), "Age".toList, 2⟩]
  have hg : oneArg exEnv "m".toList (.map (.basic .string) (.user exUser)) =
      .ok ⟨⟨"Svc".toList, [(exUser, us)]⟩, [("Do".toList, fs, [])]⟩ := by decide +kernel
  have ha : (⟨⟨"Svc".toList, [(exUser, us)]⟩, [("Do".toList, fs, [])]⟩ : File).accepted "Svc".toList = true := by
    decide +kernel
  refine ⟨_, fs, [("m".toList, .map [(.str "a".toList,
    .struct [("Name".toList, .prim (.str "x".toList)), ("Age".toList, .prim (.int 7))])])], hg, ha,
    List.mem_cons_self, typed_one (.map (by simp) ?_ ?_), ?_⟩
  · intro k v h
    simp only [List.mem_singleton, Prod.mk.injEq] at h
    rw [h.1]
    exact .prim trivial
  · intro k v h
    simp only [List.mem_singleton, Prod.mk.injEq] at h
    rw [h.2]
    exact exUser_typed (by omega)
  · intro n msg hu
    have := C51_maps_are_lost (m := ⟨"Do".toList, [("m".toList, .map (.basic .string) (.user exUser))], []⟩)
      hg ha List.mem_cons_self List.mem_cons_self (x := "m".toList) List.mem_cons_self hu
    simp [get] at this

/-- **C51** is false for pointers (marshallgen.go:186-187).  A method with an argument of type
`*User`: the file compiles, but the server unpacks into a nil pointer, whatever message
arrives. -/
theorem C51_pointer_refuted : ∃ (file : File) (req : List Field) (args : List (List Char × Val)),
    oneArg exEnv "u".toList (.pointer (.user exUser)) = .ok file ∧
    file.accepted "Svc".toList = true ∧ ("Do".toList, req, []) ∈ file.methods ∧
    Typed exEnv [("u".toList, .pointer (.user exUser))] args ∧
    ∀ n msg args', unpack file.builder n req msg ≠ .ok args' := by
  let fs : List Field := [⟨.pointer (.user exUser), .message "Svc_User".toList,
    .pointer (.user "Svc_User".toList), "u".toList, 1⟩]
  let us : List Field := [⟨.basic .string, .scalar .string, .basic (some .string), "Name".toList, 1⟩,
    ⟨.basic .uint8, .scalar .uint32, .basic (some .uint32), "Age".toList, 2⟩]
  have hg : oneArg exEnv "u".toList (.pointer (.user exUser)) =
      .ok ⟨⟨"Svc".toList, [(exUser, us)]⟩, [("Do".toList, fs, [])]⟩ := by decide +kernel
  have ha : (⟨⟨"Svc".toList, [(exUser, us)]⟩, [("Do".toList, fs, [])]⟩ : File).accepted "Svc".toList = true := by
    decide +kernel
  refine ⟨_, fs, [("u".toList, .ptr (.struct [("Name".toList, .prim (.str "x".toList)), ("Age".toList, .prim (.int 7))]))],
    hg, ha, List.mem_cons_self, typed_one (.ptr (exUser_typed (by omega))), ?_⟩
  intro n msg args'
  exact C51_pointers_crash (m := ⟨"Do".toList, [("u".toList, .pointer (.user exUser))], []⟩) hg ha
    List.mem_cons_self List.mem_cons_self (x := "u".toList) (ds := exUserFields) List.mem_cons_self rfl
    ⟨⟨["Name".toList], .basic .string⟩, List.mem_cons_self, by simp⟩ msg args'

/-- **C51** is false for pointers that are nil (marshallgen.go:132).  The client dereferences
the pointer when it packs it. -/
theorem C51_nil_refuted : ∃ (file : File) (req : List Field),
    oneArg exEnv "u".toList (.pointer (.user exUser)) = .ok file ∧
    file.accepted "Svc".toList = true ∧ ("Do".toList, req, []) ∈ file.methods ∧
    Typed exEnv [("u".toList, .pointer (.user exUser))] [("u".toList, .nil)] ∧
    ∀ n msg, pack file.builder n req [("u".toList, .nil)] ≠ .ok msg := by
  let fs : List Field := [⟨.pointer (.user exUser), .message "Svc_User".toList,
    .pointer (.user "Svc_User".toList), "u".toList, 1⟩]
  let us : List Field := [⟨.basic .string, .scalar .string, .basic (some .string), "Name".toList, 1⟩,
    ⟨.basic .uint8, .scalar .uint32, .basic (some .uint32), "Age".toList, 2⟩]
  have hg : oneArg exEnv "u".toList (.pointer (.user exUser)) =
      .ok ⟨⟨"Svc".toList, [(exUser, us)]⟩, [("Do".toList, fs, [])]⟩ := by decide +kernel
  have ha : (⟨⟨"Svc".toList, [(exUser, us)]⟩, [("Do".toList, fs, [])]⟩ : File).accepted "Svc".toList = true := by
    decide +kernel
  refine ⟨_, fs, hg, ha, List.mem_cons_self, typed_one .nil, ?_⟩
  intro n msg h
  cases n with
  | zero => cases h
  | succ n => cases h

/-- `type Base struct { Id int64 }`, `type Derived struct { Base; X string }` and
`type Point struct { X, Y int64 }`. -/
def rfBase : UserTy := ⟨"app".toList, "Base".toList⟩
def rfDerived : UserTy := ⟨"app".toList, "Derived".toList⟩
def rfPoint : UserTy := ⟨"app".toList, "Point".toList⟩
def rfEnv : UserTy → Option (List FieldDecl) := fun t =>
  if t = rfBase then some [⟨["Id".toList], .basic .int64⟩]
  else if t = rfDerived then some [⟨[], .user rfBase⟩, ⟨["X".toList], .basic .string⟩]
  else if t = rfPoint then some [⟨["X".toList, "Y".toList], .basic .int64⟩]
  else none

/-- **C51** is false for embedded structs (protogen.go:300-304).  They are left out of the
message: the server receives `Derived{X: "x"}` for `Derived{Base{7}, "x"}`. -/
theorem C51_embedded_refuted : ∃ (file : File) (req : List Field) (args : List (List Char × Val)),
    oneArg rfEnv "d".toList (.user rfDerived) = .ok file ∧
    file.accepted "Svc".toList = true ∧ ("Do".toList, req, []) ∈ file.methods ∧
    Typed rfEnv [("d".toList, .user rfDerived)] args ∧
    ∃ msg, pack file.builder 9 req args = .ok msg ∧
      unpack file.builder 9 req msg =
        .ok [("d".toList, .struct [("X".toList, .prim (.str "x".toList))])] ∧
      args ≠ [("d".toList, .struct [("X".toList, .prim (.str "x".toList))])] := by
  let fs : List Field := [⟨.user rfDerived, .message "Svc_Derived".toList, .user "Svc_Derived".toList, "d".toList, 1⟩]
  let ds : List Field := [⟨.basic .string, .scalar .string, .basic (some .string), "X".toList, 1⟩]
  refine ⟨⟨⟨"Svc".toList, [(rfDerived, ds)]⟩, [("Do".toList, fs, [])]⟩, fs,
    [("d".toList, .struct [("Base".toList, .struct [("Id".toList, .prim (.int 7))]),
      ("X".toList, .prim (.str "x".toList))])], by decide +kernel, by decide +kernel, List.mem_cons_self, ?_,
    [("D".toList, .ptr (.struct [("X".toList, .prim (.str "x".toList))]))], by rfl, by rfl, ?_⟩
  · refine typed_one (.struct (ds := [⟨[], .user rfBase⟩, ⟨["X".toList], .basic .string⟩]) rfl rfl ?_)
    intro y τ v h1 h2
    simp only [structFields, embeddedName, rfBase, List.flatMap_cons, List.map_cons, List.map_nil, List.flatMap_nil,
      List.append_nil, List.cons_append, List.nil_append, List.mem_cons, List.not_mem_nil, or_false, Prod.mk.injEq] at h1 h2
    rcases h1 with ⟨rfl, rfl⟩ | ⟨rfl, rfl⟩ <;> rcases h2 with ⟨h, rfl⟩ | ⟨h, rfl⟩
    · refine .struct (ds := [⟨["Id".toList], .basic .int64⟩]) rfl rfl ?_
      intro y τ v h1 h2
      simp only [structFields, List.flatMap_cons, List.map_cons, List.map_nil, List.flatMap_nil,
        List.append_nil, List.mem_singleton, Prod.mk.injEq] at h1 h2
      obtain ⟨_, rfl⟩ := h1
      obtain ⟨_, rfl⟩ := h2
      exact .prim (by simp [PrimOf, InRange])
    · exact absurd h (by decide)
    · exact absurd h (by decide)
    · exact .prim trivial
  · intro h
    simp at h

/-- **C51** is false for lines with several fields (goparser/parser.go:571).  Of `X, Y int64`
only `X` is read: the server receives `Point{X: 1}` for `Point{1, 2}`. -/
theorem C51_several_names_refuted : ∃ (file : File) (req : List Field) (args : List (List Char × Val)),
    oneArg rfEnv "p".toList (.user rfPoint) = .ok file ∧
    file.accepted "Svc".toList = true ∧ ("Do".toList, req, []) ∈ file.methods ∧
    Typed rfEnv [("p".toList, .user rfPoint)] args ∧
    ∃ msg, pack file.builder 9 req args = .ok msg ∧
      unpack file.builder 9 req msg = .ok [("p".toList, .struct [("X".toList, .prim (.int 1))])] ∧
      args ≠ [("p".toList, .struct [("X".toList, .prim (.int 1))])] := by
  let fs : List Field := [⟨.user rfPoint, .message "Svc_Point".toList, .user "Svc_Point".toList, "p".toList, 1⟩]
  let ds : List Field := [⟨.basic .int64, .scalar .sint64, .basic (some .int64), "X".toList, 1⟩]
  refine ⟨⟨⟨"Svc".toList, [(rfPoint, ds)]⟩, [("Do".toList, fs, [])]⟩, fs,
    [("p".toList, .struct [("X".toList, .prim (.int 1)), ("Y".toList, .prim (.int 2))])],
    by decide +kernel, by decide +kernel, List.mem_cons_self, ?_,
    [("P".toList, .ptr (.struct [("X".toList, .prim (.int 1))]))], by rfl, by rfl, ?_⟩
  · refine typed_one (.struct (ds := [⟨["X".toList, "Y".toList], .basic .int64⟩]) rfl rfl ?_)
    intro y τ v h1 h2
    simp only [structFields, List.flatMap_cons, List.map_cons, List.map_nil, List.flatMap_nil,
      List.append_nil, List.mem_cons, List.not_mem_nil, or_false, Prod.mk.injEq] at h1 h2
    have hτ : τ = .basic .int64 := by rcases h1 with ⟨_, h⟩ | ⟨_, h⟩ <;> exact h
    rcases h2 with ⟨_, rfl⟩ | ⟨_, rfl⟩ <;> rw [hτ] <;> exact .prim (by simp [PrimOf, InRange])
  · intro h
    simp at h

/-- The generator reports no error, but protoc or the Go compiler does. -/
def Rejected (r : Res File) : Bool :=
  match r with
  | .ok file => !file.accepted "Svc".toList
  | _ => false

/-- **C51** is false for slices of most integer types (marshallgen.go:164, 222).  For `[]int`
the statement assigns a `[]int` to a `[]int64`. -/
theorem C51_int_slice_refuted : ∀ b ∈ [Basic.int, .int8, .int16, .uint, .uint16, .uint8],
    Rejected (oneArg (fun _ => none) "xs".toList (.slice (.basic b))) = true := by decide +kernel

/-- **C51** is false for maps whose keys are integers of most types (marshallgen.go:145-151).
For `map[int]string` the statement assigns to a `map[int64]string`. -/
theorem C51_int_map_refuted : ∀ b ∈ [Basic.int, .int8, .int16, .uint, .uint8, .uint16],
    Rejected (oneArg (fun _ => none) "m".toList (.map (.basic b) (.basic .string))) = true := by decide +kernel

/-- **C51** is false for `byte` and `rune` (protogen.go:329-330): protobuf has no `uint8`. -/
theorem C51_byte_refuted : ∀ b ∈ [Basic.byte, .rune],
    Rejected (oneArg (fun _ => none) "c".toList (.basic b)) = true := by decide +kernel

/-- **C51** is false for pointers to basic types (marshallgen.go:189): `&*int(x)` does not
compile. -/
theorem C51_pointer_to_basic_refuted : ∀ b ∈ [Basic.bool, .string, .int, .int64, .float64],
    Rejected (oneArg (fun _ => none) "p".toList (.pointer (.basic b))) = true := by decide +kernel

/-- **C51** is false for names with underscores and for names with a lower case letter after a
digit (marshallgen.go:122): the generated code uses another name for the field than
protoc-gen-go. -/
theorem C51_name_refuted : ∀ x ∈ ["user_id".toList, "a2b".toList, "reset".toList],
    Rejected (oneArg (fun _ => none) x (.basic .string)) = true := by decide +kernel

/-- **C51** is false for an argument called `msg` (marshallgen.go:23): the receiver has the
same name. -/
theorem C51_msg_refuted : Rejected (oneArg (fun _ => none) "msg".toList (.basic .string)) = true := by
  decide +kernel

/-- Two structs called `Item`, in different packages. -/
def rfEnv2 : UserTy → Option (List FieldDecl) := fun t =>
  if t = ⟨"a".toList, "Item".toList⟩ then some [⟨["X".toList], .basic .string⟩]
  else if t = ⟨"b".toList, "Item".toList⟩ then some [⟨["Y".toList], .basic .bool⟩]
  else none

/-- **C51** is false if two structs have the same name (protogen.go:297): their messages have
the same name too, although they belong to different packages. -/
theorem C51_same_name_refuted :
    Rejected (generate rfEnv2 9 "Svc".toList [⟨"Do".toList, [("x".toList, .user ⟨"a".toList, "Item".toList⟩),
      ("y".toList, .user ⟨"b".toList, "Item".toList⟩)], []⟩]) = true := by decide +kernel

/-! ### C64: calls that do something else than the local call -/

/-- **C64** is false for maps, for every implementation: if a method has an argument that is a
map, then whatever the client passes, the implementation sees a map that is nil or empty. -/
theorem C64_maps_refuted {σ : Type} {env : UserTy → Option (List FieldDecl)} {base svc : List Char}
    {ms : List Method} {file : File} {n k : Nat} (hg : generate env n base ms = .ok file)
    (ha : file.accepted svc = true) {m : Method} (hm : m ∈ ms) {req rsp : List Field}
    (he : (m.name, req, rsp) ∈ file.methods) {x : List Char} {κ τ : Ty}
    (hx : (x, .map κ τ) ∈ named 0 m.args)
    (impl : σ → List (List Char × Val) → σ × Option (List (List Char × Val))) (net : Net) (s : σ)
    (args : List (List Char × Val)) {r : Served σ}
    (h : remoteCall file.builder k req rsp impl net s args = some r) :
    ∀ a ∈ r.calls, get x a = none ∨ get x a = some (.map []) := by
  have key := fun msg a (hu : unpack file.builder k req msg = .ok a) =>
    C51_maps_are_lost hg ha hm he hx hu
  unfold remoteCall at h
  repeat' split at h
  all_goals first
    | (cases h; done)
    | (simp only [Option.some.injEq] at h; subst h; intro a ha; cases ha; done)
    | (simp only [Option.some.injEq] at h
       subst h
       intro a ha
       rw [List.mem_singleton] at ha
       subst ha
       exact key _ _ ‹_›)

/-- **C64** is false for pointers, for every implementation: if a method has an argument that is
a pointer to a struct with a field, then no call through the client ever reaches the
implementation or returns results; and a call whose request is delivered ends the process of the
server. -/
theorem C64_pointers_refuted {σ : Type} {env : UserTy → Option (List FieldDecl)} {base svc : List Char}
    {ms : List Method} {file : File} {n k : Nat} (hg : generate env n base ms = .ok file)
    (ha : file.accepted svc = true) {m : Method} (hm : m ∈ ms) {req rsp : List Field}
    (he : (m.name, req, rsp) ∈ file.methods) {x : List Char} {t : UserTy} {ds : List FieldDecl}
    (hx : (x, .pointer (.user t)) ∈ named 0 m.args) (hds : env t = some ds) (hd : ∃ d ∈ ds, d.names ≠ [])
    (impl : σ → List (List Char × Val) → σ × Option (List (List Char × Val))) (net : Net) (s : σ)
    (args : List (List Char × Val)) {r : Served σ}
    (h : remoteCall file.builder k req rsp impl net s args = some r) :
    r.calls = [] ∧ (∀ vs, r.reply ≠ .results vs) ∧
      (net ≠ .lostRequest → r.reply ≠ .panic → r.state = none) := by
  have key := fun msg a (hu : unpack file.builder k req msg = .ok a) =>
    C51_pointers_crash hg ha hm he hx hds hd msg a hu
  unfold remoteCall at h
  repeat' split at h
  all_goals first
    | (cases h; done)
    | (exact absurd ‹_› (key _ _); done)
    | (simp only [Option.some.injEq] at h; subst h; simp_all; done)

/-- The two theorems above are about calls that happen.  A method `Do(m map[string]string)`, and an
implementation that counts its calls: the client passes a map with an entry, the implementation
sees none (variables that are not set are left out of the list: they have their zero value,
here nil).  A method `Do(u *User)`: the client passes a user, and the server crashes. -/
theorem C64_happens_refuted :
    (∃ file req, oneArg (fun _ => none) "m".toList (.map (.basic .string) (.basic .string)) = .ok file ∧
      file.accepted "Svc".toList = true ∧ ("Do".toList, req, []) ∈ file.methods ∧
      remoteCall file.builder 9 req [] (fun s _ => (s + 1, some [])) .deliver 0
          [("m".toList, .map [(.str "a".toList, .prim (.str "b".toList))])] =
        some ⟨some 1, [[]], .results []⟩) ∧
    (∃ file req, oneArg exEnv "u".toList (.pointer (.user exUser)) = .ok file ∧
      file.accepted "Svc".toList = true ∧ ("Do".toList, req, []) ∈ file.methods ∧
      remoteCall file.builder 9 req [] (fun s _ => (s + 1, some [])) .deliver 0
          [("u".toList, .ptr (.struct [("Name".toList, .prim (.str "x".toList)), ("Age".toList, .prim (.int 7))]))] =
        some ⟨none, [], .error⟩) := by
  refine ⟨⟨⟨⟨"Svc".toList, []⟩, [("Do".toList, [⟨.map (.basic .string) (.basic .string),
      .map .string (.scalar .string), .map (.basic .string) (.basic (some .string)), "m".toList, 1⟩], [])]⟩, _,
      by decide +kernel, by decide +kernel, List.mem_cons_self, rfl⟩,
    ⟨⟨⟨"Svc".toList, [(exUser, [⟨.basic .string, .scalar .string, .basic (some .string), "Name".toList, 1⟩,
      ⟨.basic .uint8, .scalar .uint32, .basic (some .uint32), "Age".toList, 2⟩])]⟩,
      [("Do".toList, [⟨.pointer (.user exUser), .message "Svc_User".toList,
        .pointer (.user "Svc_User".toList), "u".toList, 1⟩], [])]⟩, _,
      by decide +kernel, by decide +kernel, List.mem_cons_self, rfl⟩⟩

end Verif.Grpc
