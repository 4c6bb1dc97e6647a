import Verif.Model.Load
/-!
Model of bin/finch/main.go, boot/boot.go and `ParseCommandLine` in boot/cmdline.go, and of the loop of
`Server.Run`, compute/server.go:50-68. Inputs: the command line parser (github.com/alexflint/go-arg), which
also reads the environment variables, and the results of everything that is started: creating the CPU
profile, running as client, loading the stages (Model/Load), running a stage. The result is the list of
things done, and the exit status or a panic. CTRL-C is an input: whether the context was cancelled by
the time a stage had ended. The forced exit 7.5 s after CTRL-C is in Model/ShutTime. Not modelled: printed text.
-/
namespace Finch

/-- boot/cmdline.go:14-30, the fields that decide something. `args` are the positional arguments; the first
is the name of the program because the parser is given all of `os.Args`. -/
structure CmdLine where
  client : Text := []
  cpuProfile : Text := []
  db : Text := []
  dsn : Text := []
  help : Bool := false
  params : List Text := []
  server : Text := []
  test : Bool := false
  version : Bool := false
  args : List Text := []
  deriving DecidableEq

/-- `arg.Parser.Parse`: what has been parsed, and the error. -/
inductive ParseErr
  | none | help | version | other
  deriving DecidableEq

/-- boot/cmdline.go:32-48; `none` is an error. -/
def parseCommandLine (parse : List Text → CmdLine × ParseErr) (args : List Text) : Option CmdLine :=
  match parse args with
  | (c, .none) => some c
  | (c, .help) => some { c with help := true }
  | (c, .version) => some { c with version := true }
  | (_, .other) => none

/-- Things done that can be seen. -/
inductive BootEff
  | help
  | version
  | profile (file : Text)
  | client (addr : Text)
  | load (files params : List Text) (dsn db : Text)
  /-- a server is made; its API listens on the address, if any -/
  | server (listen : Option Text) (test : Bool)
  /-- a stage is run in a directory -/
  | stage (dir : Text) (n : Nat) (c : StageConf)
  deriving DecidableEq

/-- How the program ends. -/
inductive BootEnd
  | exit (status : Nat)
  | panic
  deriving DecidableEq

structure BootWorld where
  parse : List Text → CmdLine × ParseErr
  /-- `os.Create` works -/
  create : Text → Bool
  /-- `client.Run` returns no error -/
  clientRun : Text → Bool
  load : List Text → List Text → Text → Text → Out (List (Nat × StageConf))
  /-- `filepath.Dir` -/
  dir : Text → Text
  /-- `os.Chdir` works -/
  chdir : Text → Bool
  /-- `Server.run` of a stage -/
  run : Nat → StageConf → Out Unit
  /-- the context is cancelled when the stage has ended -/
  cancelled : Nat → Bool

/-- finch.go:23 -/
def defaultServerPort : Text := "33075".toList

/-- compute/server.go:50-68; `err` is an error. -/
def serverRun (W : BootWorld) : List (Nat × StageConf) → List BootEff × Out Unit
  | [] => ([], .ok ())
  | (n, c) :: rest =>
    if !W.chdir (W.dir c.file) then ([], .err)
    else
      let eff := BootEff.stage (W.dir c.file) n c
      match W.run n c with
      | .panic => ([eff], .panic)
      | .err => ([eff], .err)
      | .ok _ =>
        if W.cancelled n then ([eff], .ok ())
        else
          let r := serverRun W rest
          (eff :: r.1, r.2)

/-- bin/finch/main.go:11-15: an error ends with `log.Fatal`, which exits with status 1. -/
def outEnd : Out Unit → BootEnd
  | .ok _ => .exit 0
  | .err => .exit 1
  | .panic => .panic

/-- boot/boot.go:92-113: not a client. -/
def bootServer (W : BootWorld) (c : CmdLine) : List BootEff × BootEnd :=
  if c.args.length = 1 then ([], .exit 1)
  else if c.args.length = 0 then ([], .panic)
  else
    let eff := BootEff.load (c.args.drop 1) c.params c.dsn c.db
    match W.load (c.args.drop 1) c.params c.dsn c.db with
    | .panic => ([eff], .panic)
    | .err => ([eff], .exit 1)
    | .ok stages =>
      let listen := if c.server = [] then none else some (withPort c.server defaultServerPort)
      let r := serverRun W stages
      (eff :: .server listen c.test :: r.1, outEnd r.2)

/-- boot/boot.go:31-113 and bin/finch/main.go. -/
def boot (W : BootWorld) (args : List Text) : List BootEff × BootEnd :=
  match parseCommandLine W.parse args with
  | none => ([], .exit 1)
  | some c =>
    if c.help then ([.help], .exit 0)
    else if c.version then ([.version], .exit 0)
    else if c.cpuProfile ≠ [] && !W.create c.cpuProfile then ([], .exit 1)
    else
      let prof := if c.cpuProfile = [] then [] else [BootEff.profile c.cpuProfile]
      if c.client ≠ [] then
        let addr := withPort c.client defaultServerPort
        (prof ++ [.client addr], if W.clientRun addr then .exit 0 else .exit 1)
      else
        let r := bootServer W c
        (prof ++ r.1, r.2)

end Finch
