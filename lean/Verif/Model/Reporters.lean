import Verif.Model.Report
import Verif.Model.Validate
/-!
Model of how the reporters of a stage are made and what CSV files hold: stats/reporter.go
(`MakeReporters`, `Register`), stats/csv.go (`NewCSV`, `Report`, `Stop`), the callers in
compute/server.go and compute/client.go, and the stages of a benchmark run one after the other.

Files are texts by absolute path. Writes to an open file succeed (no full disk), nobody else changes the
files meanwhile. The time and the random numbers in the name of a temporary file, and whether a file
can be created (permissions, missing directory), are inputs.
-/
namespace Finch

/-- Files and the CSV files that are open. -/
structure Disk where
  files : Text → Option Text
  handles : List Text

/-- What the operating system and the clock give while the reporters of a stage are made. -/
structure RepEnv where
  /-- `strconv.ParseFloat(_, 64)` -/
  pf : Text → Option FVal
  /-- the absolute path of a file name in the working directory (compute/server.go:53: the directory of
  the stage file) -/
  path : Text → Text
  creatable : Text → Bool
  /-- `os.TempDir()` -/
  tmpDir : Text
  /-- `time.Now().Format(time.Stamp)` -/
  stamp : Text
  /-- the random numbers that `os.CreateTemp` tries one after the other -/
  sufs : List Text

/-- A reporter: what decides what it reports and where. -/
inductive Rep where
  | stdout (p : List (Text × FVal)) (o : StdoutOpts)
  | server (server client stage : Text)
  | csv (file : Text) (p : List (Text × FVal))
  /-- made by a factory that another package registered -/
  | other (name : Text)
  deriving DecidableEq

/-- `os.OpenFile(p, os.O_APPEND|os.O_CREATE|os.O_EXCL|os.O_WRONLY, 0644)`, stats/csv.go:30: fails if the
file exists. -/
def Disk.openNew (e : RepEnv) (d : Disk) (p : Text) : Option Disk :=
  if (d.files p).isSome || !e.creatable p then none
  else some { files := fun q => if q = p then some [] else d.files q, handles := p :: d.handles }

/-- Write at the end of an open file; the error for a closed file is ignored (stats/csv.go:47,53,119). -/
def Disk.append (d : Disk) (p t : Text) : Disk :=
  if p ∈ d.handles then
    { d with files := fun q => if q = p then (d.files p).map (· ++ t) else d.files q }
  else d

/-- `os.File.Close`, stats/csv.go:123. -/
def Disk.close (d : Disk) (p : Text) : Disk := { d with handles := d.handles.filter (· ≠ p) }

/-- stats/csv.go:28: the pattern passed to `os.CreateTemp`. -/
def tempPattern (e : RepEnv) : Text :=
  "finch-benchmark-".toList ++ (e.stamp.map fun c => if c = ' ' then '_' else c) ++ ".csv".toList

/-- `os.CreateTemp("", pattern)`: a random number is put at the end of a pattern without `*`; if there is
such a file the next number is tried, any other error is returned. -/
def createTemp (e : RepEnv) (d : Disk) : List Text → Option (Text × Disk)
  | [] => none
  | s :: ss =>
    let p := e.tmpDir ++ '/' :: tempPattern e ++ s
    if (d.files p).isSome then createTemp e d ss
    else (d.openNew e p).map fun d => (p, d)

/-- Names of options and reporters. -/
def optFile : Text := "file".toList
def optPercentiles : Text := "percentiles".toList
def nameStdout : Text := "stdout".toList
def nameServer : Text := "server".toList
def nameCSV : Text := "csv".toList
def optClient : Text := "client".toList
def optStageId : Text := "stage-id".toList

/-- `opts[k]`: empty if absent. -/
def optGet (opts : TMap Text) (k : Text) : Text := (opts.get? k).getD []

/-- stats/csv.go:23-33: the file. -/
def csvOpen (e : RepEnv) (opts : TMap Text) (d : Disk) : Option (Text × Disk) :=
  if optGet opts optFile = [] then createTemp e d e.sufs
  else (d.openNew e (e.path (optGet opts optFile))).map fun d => (e.path (optGet opts optFile), d)

/-- stats/csv.go:23-60 `NewCSV`. -/
def newCSV (e : RepEnv) (opts : TMap Text) (d : Disk) : Option Rep × Disk :=
  match csvOpen e opts d with
  | none => (none, d)
  | some (p, d) =>
    match parsePercentiles e.pf (optGet opts optPercentiles) with
    | none => (none, d)
    | some ps => (some (.csv p ps), d.append p (reportHeader (ps.map (·.1)) ++ ['\n']))

/-- stats/reporter.go:27-29 `ReporterFactory`. -/
abbrev RFactory := Text → TMap Text → Disk → Option Rep × Disk

/-- stats/reporter.go:81-91 `factory.Make`, with stats/stdout.go:36-70 `NewStdout` and
stats/remote.go:29-41 `NewServer`. -/
def builtinMake (e : RepEnv) : RFactory := fun name opts d =>
  if name = nameStdout then
    ((parsePercentiles e.pf (optGet opts optPercentiles)).map fun ps => .stdout ps (newStdout opts), d)
  else if name = nameServer then
    (some (.server (optGet opts nameServer) (optGet opts optClient) (optGet opts optStageId)), d)
  else if name = nameCSV then newCSV e opts d
  else (none, d)

/-- stats/reporter.go:48-58 `Register`. -/
def registerRep (r : TMap RFactory) (name : Text) (f : RFactory) : Option (TMap RFactory) :=
  if (r.get? name).isSome then none else some (r.set name f)

/-- stats/reporter.go:62-66 `init`. -/
def builtinReporters (e : RepEnv) : TMap RFactory :=
  [(nameStdout, builtinMake e), (nameServer, builtinMake e), (nameCSV, builtinMake e)]

/-- stats/reporter.go:31-46 `MakeReporters`, for the entries in the order of iteration. -/
def makeReporters (r : TMap RFactory) : TMap (TMap Text) → Disk → Option (List Rep) × Disk
  | [], d => (some [], d)
  | (name, opts) :: rest, d =>
    match r.get? name with
    | none => (none, d)
    | some f =>
      match f name opts d with
      | (none, d) => (none, d)
      | (some x, d) =>
        match makeReporters r rest d with
        | (none, d) => (none, d)
        | (some xs, d) => (some (x :: xs), d)

/-- compute/server.go:95-101: reporters of the local instance and of the server; none if statistics are disabled. -/
def serverReporters (r : TMap RFactory) (disable : Bool) (report : TMap (TMap Text)) (d : Disk) :
    Option (List Rep) × Disk :=
  if disable then (some [], d) else makeReporters r report d

/-- compute/client.go:98-108: what a remote instance makes of the reporters in the config that the server sent. -/
def remoteReport (report : TMap (TMap Text)) (addr name stage : Text) : TMap (TMap Text) :=
  (report.filter fun x => x.1 = nameStdout) ++
    [(nameServer, [(nameServer, addr), (optClient, name), (optStageId, stage)])]

/-- compute/client.go:98-112: the reporters of a remote instance. `Stats.Disable` is not looked at. -/
def remoteReporters (r : TMap RFactory) (_disable : Bool) (report : TMap (TMap Text)) (addr name stage : Text)
    (d : Disk) : Option (List Rep) × Disk :=
  makeReporters r (remoteReport report addr name stage) d

/-- One reporter is passed the instances of an interval (`i` and `rest`, at least one): what changes on
disk. stats/csv.go:62-120. -/
def Rep.reportDisk (v : List FVal → LineEnv) (errs : Stats → Nat) (i : InstLine) (rest : List InstLine)
    (d : Disk) : Rep → Disk
  | .csv p ps =>
    match csvReport (v (ps.map (·.2))) errs (i :: rest) with
    | none => d
    | some l => d.append p (l ++ ['\n'])
  | _ => d

/-- stats/csv.go:122-124 `Stop`. -/
def Rep.stopDisk (d : Disk) : Rep → Disk
  | .csv p _ => d.close p
  | _ => d

/-- A stage of a benchmark, as far as reporters are concerned: its configuration, the environment while its
reporters are made, and the intervals reported while it runs. -/
structure RepStage where
  env : RepEnv
  report : TMap (TMap Text)
  reports : List (InstLine × List InstLine)

/-- The stage once its reporters are made: every interval is passed to every reporter
(stats/collector.go:388-390), then all are stopped (stats/collector.go:281-283). -/
def RepStage.runReps (v : List FVal → LineEnv) (errs : Stats → Nat) (s : RepStage) (reps : List Rep) (d : Disk) : Disk :=
  let d := s.reports.foldl (fun d x => reps.foldl (fun d r => r.reportDisk v errs x.1 x.2 d) d) d
  reps.foldl (fun d r => r.stopDisk d) d

/-- compute/server.go:50-66 `Run`: one stage after the other until one cannot make its reporters. `true` if all could. -/
def runReports (v : List FVal → LineEnv) (errs : Stats → Nat) : List RepStage → Disk → Bool × Disk
  | [], d => (true, d)
  | s :: ss, d =>
    match makeReporters (builtinReporters s.env) s.report d with
    | (none, d) => (false, d)
    | (some reps, d) => runReports v errs ss (s.runReps v errs reps d)

end Finch
