import Verif.Strings.Model

/-
Model of /repo/plugins/environment/wiring.go: the files .env and .local.env.
-/
namespace Verif.Deploy.Env
open Verif.Strings

scoped notation "Str" => List Char

/-- A node that reaches the plugin: `*address.BindConfig` and `*address.DialConfig` with Key
and AddressName, or another configuration node. -/
inductive Node where
  | bind (key addr : Str)
  | dial (key addr : Str)
  | other
deriving DecidableEq, Repr

/-- wiring.go:87-92 (addrconfig): the keys of the bind and the dial config, if any.  The
service name is computed from the name. -/
structure Config where
  name : Str
  bind : Option Str
  dial : Option Str
deriving DecidableEq, Repr

/-- wiring.go:94-96 (addr): `strings.Split(name, ".")[0]`. -/
def serviceName (name : Str) : Str := name.takeWhile (· != '.')

/-- wiring.go:101-107: an existing entry gets the bind config, or a new entry is made. -/
def setBind (key addr : Str) : List Config → List Config
  | [] => [⟨addr, some key, none⟩]
  | c :: cs => if c.name = addr then { c with bind := some key } :: cs else c :: setBind key addr cs

/-- wiring.go:109-116: the same for a dial config. -/
def setDial (key addr : Str) : List Config → List Config
  | [] => [⟨addr, none, some key⟩]
  | c :: cs => if c.name = addr then { c with dial := some key } :: cs else c :: setDial key addr cs

/-- wiring.go:98-119 (matchDialsToBinds).  The Go map is a list of entries with different
names; its order does not matter, because generateEnv sorts. -/
def matchDialsToBinds : List Config → List Node → List Config
  | cs, [] => cs
  | cs, .bind key addr :: nodes => matchDialsToBinds (setBind key addr cs) nodes
  | cs, .dial key addr :: nodes => matchDialsToBinds (setDial key addr cs) nodes
  | cs, .other :: nodes => matchDialsToBinds cs nodes

/-- Comparison of Go strings, byte by byte; UTF-8 keeps the order of the characters. -/
def before : Str → Str → Bool
  | [], _ => true
  | _ :: _, [] => false
  | a :: as, b :: bs => a.toNat < b.toNat || (a == b && before as bs)

/-- `sort.Strings` on the names of the entries (wiring.go:135-139). -/
def insert (c : Config) : List Config → List Config
  | [] => [c]
  | d :: ds => if before c.name d.name then c :: d :: ds else d :: insert c ds

def sortByName : List Config → List Config
  | [] => []
  | c :: cs => insert c (sortByName cs)

/-- A line `var=host:port`. -/
structure Line where
  var : Str
  host : Str
  port : Nat
deriving DecidableEq, Repr

/-- wiring.go:142-151: the lines of one address. -/
def linesOf (c : Config) (port : Nat) (localhost : Bool) : List Line :=
  (match c.bind with
    | some key => [⟨envVar key, "0.0.0.0".toList, port⟩]
    | none => []) ++
  (match c.dial with
    | some key => [⟨envVar key, if localhost then "localhost".toList else serviceName c.name, port⟩]
    | none => [])

/-- wiring.go:140-153; `port += 1` on a `uint16`. -/
def emit (localhost : Bool) : Nat → List Config → List Line
  | _, [] => []
  | port, c :: cs => linesOf c port localhost ++ emit localhost ((port + 1) % 65536) cs

/-- wiring.go:132-162 (generateEnv).  Errors of the file system are not modelled. -/
def generateEnv (addrs : List Config) (port : Nat) (localhost : Bool) : List Line :=
  emit localhost port (sortByName addrs)

/-- wiring.go:122-130 (generateEnvFiles): .local.env and .env. -/
def generateEnvFiles (nodes : List Node) (port : Nat) : List Line × List Line :=
  let addrs := matchDialsToBinds [] nodes
  (generateEnv addrs port true, generateEnv addrs port false)

/-- The value that a shell has for a variable after reading the file: the last line counts. -/
def lookup (lines : List Line) (var : Str) : Option (Str × Nat) :=
  (lines.reverse.find? fun l => l.var == var).map fun l => (l.host, l.port)

end Verif.Deploy.Env
