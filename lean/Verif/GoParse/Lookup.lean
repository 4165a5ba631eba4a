import Verif.GoParse.Modules
/-
C131: looking up a service by its package and name: the module in which a package is (plugins/golang/goparser/module.go), and the search for
the service in the modules that have been parsed (plugins/workflow/workflowspec/{cache,spec}.go).

Simplifications: the go command, which golang.org/x/tools/go/packages runs, is a function of the number of the call and the pattern, and may
fail at any call.  Of a module are kept the fields that the code reads.
-/
namespace Verif.GoParse

/-! ### Modules of packages (goparser/module.go) -/

/-- `packages.Module`, as the go command describes a module; read by module.go lines 73-86 and 99-101. -/
structure GoModule where
  path : Name
  version : Name
  dir : Name
  goMod : Name
  main : Bool
  replaced : Bool
deriving DecidableEq

/-- `ModuleInfo` (lines 14-21), without the pointer to the go command's description. -/
structure Info where
  shortName : Name
  path : Name
  version : Name
  dir : Name
  isLocal : Bool
deriving DecidableEq

/-- `isLocal` (lines 99-101): `mod.Main || mod.Replace != nil || strings.HasPrefix(mod.GoMod, mod.Dir)`. -/
def isLocal (m : GoModule) : Bool := m.main || m.replaced || m.dir.isPrefixOf m.goMod

/-- Lines 77-85; the short name is the last of the parts between slashes. -/
def infoOf (m : GoModule) : Info := ⟨lastPart m.path, m.path, m.version, m.dir, isLocal m⟩

/-- `packages.Load` (line 68): at the n-th call, for a pattern, the packages with their modules, or an error (`none`). -/
structure GoTool where
  load : Nat → Name → Option (List (Name × Option GoModule))

/-- The global `cache` (line 27), and the number of calls of the go command so far. -/
structure Finder where
  cache : List (Name × Info) := []
  calls : Nat := 0

/-- The loop of `findModules` (lines 73-89). -/
def record : List (Name × Info) → List (Name × Option GoModule) → List (Name × Info)
  | c, [] => c
  | c, (_, none) :: l => record c l
  | c, (id, some m) :: l => record (insert m.path (infoOf m) (insert id (infoOf m) c)) l

/-- `findModules` (lines 67-91): false is an error. -/
def findModules (g : GoTool) (f : Finder) (pattern : Name) : Finder × Bool :=
  match g.load f.calls pattern with
  | none => ({ f with calls := f.calls + 1 }, false)
  | some l => (⟨record f.cache l, f.calls + 1⟩, true)

def dots : Name := ['.', '.', '.']

/-- `GetModuleInfo` (lines 32-45). -/
def getModuleInfo (g : GoTool) (f : Finder) (name : Name) : Finder × Option Info :=
  match f.cache.lookup name with
  | some i => (f, some i)
  | none =>
    match findModules g f (name ++ dots) with
    | (f, false) => (f, none)
    | (f, true) => (f, f.cache.lookup name)

/-- `FindPackageModule` (lines 48-65). -/
def findPackageModule (g : GoTool) (f : Finder) (pkg : Name) : Finder × Option Info :=
  match f.cache.lookup pkg with
  | some i => (f, some i)
  | none =>
    match findModules g f pkg with
    | (f, false) => (f, none)
    | (f, true) =>
      match f.cache.lookup pkg with
      | none => (f, none)
      | some i =>
        match findModules g f (i.path ++ dots) with
        | (f, false) => (f, none)
        | (f, true) => (f, some i)

/-! ### Services by name (workflowspec/cache.go and spec.go) -/

/-- The cached workflow spec (workflowspec/cache.go line 6) with its modules, and the finder. -/
structure Spec where
  finder : Finder := {}
  world : World := ⟨[], []⟩
  set : MSet := ⟨[], []⟩

/-- What the compiler reads that does not depend on its state: the go command, the disk, the packages of the parsed modules
(`ParsedModule.Packages`), and the order in which it goes through the packages of all modules of a set (service.go lines 162-240). -/
structure Source where
  tool : GoTool
  disk : Disk
  package : Mod → Name → Option Parsed
  visit : MSet → List Parsed

/-- `WorkflowSpec.get` (workflowspec/spec.go lines 66-87).  `ok none` is a nil service without an error: line 76 returns the error of
line 68, which is nil. -/
def get (src : Source) (s : Spec) (pkg name dir : Name) : Spec × Res (Option Service) :=
  match add src.disk [] s.world s.set dir with
  | (w, set, .error) => (⟨s.finder, w, set⟩, .error)
  | (w, set, .panic) => (⟨s.finder, w, set⟩, .panic)
  | (w, set, .ok m) => (⟨s.finder, w, set⟩,
    match src.package m pkg with
    | none => .ok none
    | some p =>
      match p.ifaces.lookup name with
      | some i =>
        match serviceFromIface i ((src.visit set).flatMap fun q => q.funcs.map (·.2)) ((src.visit set).flatMap fun q => q.structs.map (·.2)) with
        | .ok r => .ok (some r)
        | .error => .error
        | .panic => .panic
      | none =>
        match p.structs.lookup name with
        | some t =>
          match serviceFromStruct t ((src.visit set).flatMap fun q => q.funcs.map (·.2)) ((src.visit set).flatMap fun q => q.ifaces.map (·.2)) with
          | .ok r => .ok (some r)
          | .error => .error
          | .panic => .panic
        | none => .error)

/-- `GetServiceByName` (workflowspec/cache.go lines 70-77), and `GetService[T]` (lines 45-51) for a type T with this package and name:
`FindModule[T]` (goparser/module.go lines 104-117) is `FindPackageModule` of its package. -/
def getServiceByName (src : Source) (s : Spec) (pkg name : Name) : Spec × Res (Option Service) :=
  match findPackageModule src.tool s.finder pkg with
  | (f, none) => ({ s with finder := f }, .error)
  | (f, some i) => get src { s with finder := f } pkg name i.dir

/-! ### Histories -/

/-- A call. -/
inductive Query where
  | info (name : Name)
  | service (pkg name : Name)

def Spec.step (src : Source) (s : Spec) : Query → Spec
  | .info n => { s with finder := (getModuleInfo src.tool s.finder n).1 }
  | .service p n => (getServiceByName src s p n).1

def Spec.run (src : Source) : Spec → List Query → Spec
  | s, [] => s
  | s, q :: qs => Spec.run src (s.step src q) qs

end Verif.GoParse
