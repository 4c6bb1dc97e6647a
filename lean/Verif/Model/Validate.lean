import Verif.Model.Config
import Verif.Model.Trx
/-!
Model of validation of a stage, config/file.go:157-306, 386-428, 717-740 and config/config.go:157-172,
289-295, and of running the stages, compute/server.go:50-67. The file system and
`time.ParseDuration` are inputs. `none` is an error.
-/
namespace Finch

structure ValEnv where
  /-- `FileExists` -/
  fileExists : Text → Bool
  /-- `time.ParseDuration`, in nanoseconds -/
  duration : Text → Option Int

/-- config/config.go:157-172. -/
def ValEnv.validFreq (env : ValEnv) (freq : Text) : Bool :=
  if freq = [] then true
  else if freq = "0".toList then false
  else
    match env.duration freq with
    | none => false
    | some d => !(d ≤ 0)

/-- config/config.go:289-295: `strconv.ParseUint(s, 10, 32)` succeeds. -/
def intOk (s : Text) : Bool :=
  if s = [] then true
  else
    match parseUint64 s with
    | none => false
    | some n => n < 2 ^ 32

/-- `filepath.Base` on Unix. -/
def baseName (s : Text) : Text :=
  if s = [] then ['.']
  else
    let t := trimRight (· == '/') s
    if t = [] then ['/'] else (t.reverse.takeWhile (· != '/')).reverse

/-- config/file.go:188-201 -/
def scopeNames : List Text :=
  ["", "global", "stage", "workload", "exec-group", "client-group", "client", "iter", "trx", "statement",
    "row", "value"].map String.toList

/-- config/file.go:183-212: data of one trx; `seen` is the scope of every data key so far. -/
def dataLoop (seen : TMap Text) : TMap DataConf → Option (TMap Text)
  | [] => some seen
  | (key, d) :: rest =>
    if d.generator = [] then none
    else if d.scope ∉ scopeNames then none
    else
      match seen.get? key with
      | none => dataLoop (seen.set key d.scope) rest
      | some prev => if prev ≠ d.scope then none else dataLoop seen rest

/-- config/file.go:172-213. -/
def trxConfLoop (env : ValEnv) (seen : TMap Text) : List TrxConf → Option (List TrxConf)
  | [] => some []
  | t :: rest =>
    if t.file = [] then none
    else if !env.fileExists t.file then none
    else
      match dataLoop seen t.data with
      | none => none
      | some seen =>
        (trxConfLoop env seen rest).map fun r =>
          { t with name := if t.name = [] then baseName t.file else t.name } :: r

/-- config/file.go:386-428. -/
def CGConf.validate (env : ValEnv) (g : CGConf) : Option CGConf :=
  if !intOk g.clients then none
  else if !intOk g.iter then none
  else if !intOk g.iterClients then none
  else if !intOk g.iterExecGroup then none
  else if !intOk g.qps then none
  else if !intOk g.qpsClients then none
  else if !intOk g.qpsExecGroup then none
  else if !intOk g.tps then none
  else if !intOk g.tpsClients then none
  else if !intOk g.tpsExecGroup then none
  else if !env.validFreq g.runtime then none
  else some { g with clients := if g.clients = [] then "1".toList else g.clients }

/-- config/file.go:219-249. `names`: the group names so far; `prev`: the group name of the client
group before. -/
def workloadLoop (env : ValEnv) (trx : List TrxConf) (names : List Text) (prev : Text) :
    List CGConf → Option (List CGConf)
  | [] => some []
  | g :: rest =>
    match g.validate env with
    | none => none
    | some g =>
      if g.group ≠ [] ∧ g.group ∈ names ∧ g.group ≠ prev then none
      else if g.trx.any fun n => !trx.any fun t => n == t.name then none
      else
        (workloadLoop env trx (if g.group = [] then names else g.group :: names) g.group rest).map
          fun r => g :: r

/-- config/file.go:717-740. -/
def StatsCfg.validate (env : ValEnv) (s : StatsCfg) : Option StatsCfg :=
  if s.freq ≠ [] ∧ !env.validFreq s.freq then none
  else some { s with
    freq := if s.freq = [] then "0s".toList else s.freq
    report := if s.report.isEmpty then [("stdout".toList, [("each-instance".toList, "true".toList)])]
      else s.report }

/-- config/file.go:157-280. -/
def StageConf.validate (env : ValEnv) (c : StageConf) : Option StageConf :=
  if c.disable then some c
  else
    let c := { c with name := if c.name = [] then baseName c.file else c.name }
    if c.trx = [] then none
    else
      match trxConfLoop env [] c.trx with
      | none => none
      | some trx =>
        match workloadLoop env trx [] [] c.workload with
        | none => none
        | some w =>
          if (w.any fun g => !g.trx.isEmpty) && (w.any fun g => g.trx.isEmpty) then none
          else if !env.validFreq c.runtime then none
          else if !intOk c.qps then none
          else if !intOk c.tps then none
          else if !intOk c.instances then none
          else
            match c.stats.validate env with
            | none => none
            | some stats =>
              some { c with
                trx := trx, workload := w, stats := stats
                instances := if c.instances = [] then "1".toList else c.instances }

/-- What happens to a stage that is given to `Server.run`, compute/server.go:70-194, as far as it is
used here: `stats` says whether the statistics can be made (93-98); with a local instance, `Stage.Prepare` panics if there
are no trx (stage/stage.go:47-49); `run` is the result of all the rest (an error or not). -/
def runOne (stats run : StageConf → Bool) (c : StageConf) : Out Unit :=
  if !stats c then .err
  else if !c.disableLocal && c.trx.isEmpty then .panic
  else if run c then .ok () else .err

/-- compute/server.go:50-67 without cancellation: the stages that were run and the result. -/
def runStages (stats run : StageConf → Bool) : List StageConf → List StageConf × Out Unit
  | [] => ([], .ok ())
  | c :: cs =>
    match runOne stats run c with
    | .ok _ => let r := runStages stats run cs; (c :: r.1, r.2)
    | .err => ([c], .err)
    | .panic => ([c], .panic)

end Finch
