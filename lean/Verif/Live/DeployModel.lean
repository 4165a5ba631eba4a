import Verif.Live.Model
import Verif.Deploy.ComposeModel
import Verif.Deploy.RunModel
/-
How the namespaces of an application become containers and processes: what the nodes of a compiled application ask of the docker-compose
deployment and of the containers' run.sh scripts (plugins/linuxcontainer/deploy_docker.go, plugins/linuxcontainer/deploy.go,
plugins/goproc/deploy_linux_.go, plugins/goproc/linuxgen/goproc_runfunc.go), and what a process sees when it is started.

The deployment is `Deploy/ComposeModel.lean` and the scripts are `Deploy/RunModel.lean`.
-/
namespace Verif.Live
open Verif.Wiring (Name)
open Verif.Compile (Tree Space St bindName)
open Verif.Strings (cleanName envVar funcName)

/-! ### The containers of a deployment -/

/-- The AddressName of a bind or dial config (blueprint/pkg/coreplugins/address/ir.go lines 50-66) with this Key.  Simplification: in the
code the config has the name; here it is found from the Key (wiring.go lines 109-115), which ends in `bind_addr` or `dial_addr` where the
name ends in `addr`. -/
def addrOf (n : Name) : List Char := n.toList.take (n.toList.length - 9) ++ "addr".toList

/-- The bind configs of the application by identity: the positions of the nodes with their names. -/
def bindId (all : List Name) (n : Name) : Nat := all.idxOf n

/-- The names of the nodes of the application's own namespace, where addresses are. -/
def allConfigs (s : St) : List Name := (s.nodes []).map Tree.name

/-- What the prebuilt container of a backend asks for in its `AddContainerInstance` (plugins/redis/ir_redis_container.go lines 70-73,
plugins/mongodb/ir_mongo_container.go lines 69-72, plugins/mysql/ir_mysql_container.go lines 72-85, plugins/rabbitmq/ir_container.go lines
68-79, plugins/memcached/ir_memcached_container.go lines 70-77): the port that it binds, and environment variables. -/
structure Image where
  port : Nat
  env : List (List Char × List Char)

/-- The backend in the deployment's namespace that has this bind config. -/
def boundBy (s : St) (sp : Space) (n : Name) : Option Name :=
  (s.nodes sp).findSome? fun
    | .container c a => if bindName a = n then some c else none
    | _ => none

/-- The port that a server prefers: plugins/grpc/wiring.go line 119.  HTTP and Thrift servers prefer none.  gRPC's bind configs are told by
their names, which the plugin chooses. -/
def prefers (n : Name) : Nat := if ".grpc.bind_addr".toList.isSuffixOf n.toList then 12345 else 0

/-- The bind configs, when all containers have been declared: backends have set the ports of theirs (the first statements of the
`AddContainerInstance` functions above); gRPC servers prefer a port. -/
def heap (s : St) (sp : Space) (image : Name → Image) (i : Nat) : Deploy.Bind :=
  match (allConfigs s)[i]? with
  | some n =>
    match boundBy s sp n with
    | some c => ⟨n.toList, addrOf n, (image c).port, 0⟩
    | none => ⟨n.toList, addrOf n, 0, prefers n⟩
  | none => ⟨[], [], 0, 0⟩

/-- An argument of a container. -/
def configArg (all : List Name) : Tree → Deploy.Arg
  | .bind n => .bind (bindId all n)
  | .dial n => .dial n.toList (addrOf n)
  | _ => .other

/-- What the containers in a deployment's namespace ask of it: plugins/dockercompose/deploy.go lines 62-76,
plugins/linuxcontainer/deploy_docker.go lines 79-88, and the `AddContainerInstance` functions of backends. -/
def composeOps (s : St) (sp : Space) (image : Name → Image) : List Deploy.Compose.Op :=
  (s.nodes sp).flatMap fun
    | .space c => [.declare c.toList ((s.edges (c :: sp)).map (configArg (allConfigs s)))]
    | .container c a => .declare c.toList [.bind (bindId (allConfigs s) (bindName a))] :: (image c).env.map fun e => .setEnv c.toList e.1 e.2
    | _ => []

/-! ### The processes of a container -/

/-- One flag of the command line (plugins/goproc/linuxgen/goproc_runfunc.go line 41). -/
def flagText (n : Name) : List Char := " --".toList ++ n.toList ++ "=$".toList ++ envVar n.toList

/-- The inside of a process's bash function. -/
def runBody (proc : Name) (args : List Name) : List Char :=
  "\n\tcd ".toList ++ cleanName proc.toList ++ "\n    ./".toList ++ cleanName proc.toList ++ args.flatMap flagText ++ " &\n\t".toList ++
    envVar (cleanName proc.toList) ++ "=$!\n\treturn $?\n".toList

/-- The bash function that starts a process (plugins/goproc/linuxgen/goproc_runfunc.go lines 38-45), in a container that is built by
Docker (plugins/goproc/deploy_linux_.go lines 61-69). -/
def runFunc (proc : Name) (args : List Name) : List Char :=
  "\nrun_".toList ++ funcName (cleanName proc.toList) ++ " ".toList ++ '{' :: runBody proc args ++ ['}']

/-- plugins/goproc/deploy_linux_.go lines 54-77: what a process declares. -/
def procDecl (s : St) (sp : Space) (x : Name) : Deploy.Run.Decl :=
  ⟨x.toList, runFunc x ((s.edges (x :: sp)).map Tree.name), (s.edges (x :: sp)).map (·.name.toList)⟩

/-- plugins/linuxcontainer/deploy.go lines 79-104: the processes of a container. -/
def procDecls (s : St) (sp : Space) : List Deploy.Run.Decl :=
  (s.nodes sp).filterMap fun
    | .space x => some (procDecl s sp x)
    | _ => none

/-! ### Execution -/

/-- The text of an environment variable's value in the docker-compose file (plugins/dockercompose/deploy.go lines 189-222,
plugins/dockercompose/dockergen/dockercompose.go lines 95-133) after docker-compose has replaced the variables of its own environment.
Simplification: a required variable that is missing keeps docker-compose from starting; here the container lacks it. -/
def envText (host : List Char → Option (List Char)) : Deploy.Compose.Value → Option (List Char)
  | .lit t => some t
  | .addr h p => some (h ++ ':' :: Nat.toDigits 10 p)
  | .listen p => some ("0.0.0.0:".toList ++ Nat.toDigits 10 p)
  | .required v _ => host v
  | .optional v => some ((host v).getD [])

/-- The environment of a container's run.sh: that of the image, with what the file sets. -/
def containerEnv (image host : List Char → Option (List Char)) (c : Deploy.Compose.Inst) (x : List Char) : Option (List Char) :=
  match c.config x with
  | some v => envText host v
  | none => image x

/-- A text cut at each `sep`: how the shell cuts the function of plugins/goproc/linuxgen/goproc_runfunc.go lines 37-44 into lines and words. -/
def splitAt (sep : Char) : List Char → List (List Char)
  | [] => [[]]
  | c :: cs =>
    if c = sep then [] :: splitAt sep cs
    else match splitAt sep cs with
      | l :: ls => (c :: l) :: ls
      | [] => [[c]]

/-- The words of a line of a shell script (plugins/goproc/linuxgen/goproc_runfunc.go lines 37-44).  Simplification: there are no quotes and no special characters but `$`. -/
def wordsOf (line : List Char) : List (List Char) := (splitAt ' ' line).filter (· ≠ [])

/-- The command line that starts the program of a process: the first one that runs a program of the directory
(plugins/goproc/linuxgen/goproc_runfunc.go lines 40-41). -/
def commandLine (text : List Char) : List (List Char) :=
  (((splitAt '\n' text).map wordsOf).find? fun ws => match ws with
    | ('.' :: '/' :: _) :: _ => true
    | _ => false).getD []

/-- What the shell makes of a word that begins with a variable (plugins/goproc/linuxgen/goproc_runfunc.go line 41).  Simplification: values that contain blanks would become several words. -/
def expand (env : List Char → Option (List Char)) : List Char → List Char
  | '$' :: w => (env (w.takeWhile fun c => c.isAlphanum || c == '_')).getD [] ++ w.dropWhile fun c => c.isAlphanum || c == '_'
  | w => w

/-- A flag on a command line, in the form `--name=value`, and its value for the program: what the flag package of Go reads from os.Args
(runtime/plugins/golang/namespace.go lines 178, 191 and 303). -/
def flagOf (env : List Char → Option (List Char)) : List Char → Option (List Char × List Char)
  | '-' :: '-' :: w => some (w.takeWhile (· ≠ '='), expand env ((w.dropWhile (· ≠ '=')).drop 1))
  | _ => none

/-- The flags that a process gets (plugins/goproc/linuxgen/goproc_runfunc.go lines 40-41). -/
def givenFlags (text : List Char) (env : List Char → Option (List Char)) : List (List Char × List Char) :=
  ((commandLine text).drop 1).filterMap (flagOf env)

/-- What a process sees that run.sh starts with this text and the shell's variables `env`.  `exported` are the environment variables of the
process; the flags come first, and of several flags with one name Go's flag package takes the last. -/
def processWorld (text : List Char) (env : List Char → Option (List Char)) (exported : List Char → String) : RtNs.World :=
  ⟨fun n => match (givenFlags text env).reverse.lookup n.toList with
    | some v => String.ofList v
    | none => "", exported⟩

end Verif.Live
