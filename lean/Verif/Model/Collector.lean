import Verif.Model.Stats
/-!
Model of stats/collector.go: collecting, receiving and reporting statistics per interval.
Wall-clock fields (Seconds, Runtime) and the reporters' output are not modelled; what reporters are
given is.
-/
namespace Finch

/-- stats/collector.go:20-28 `Instance`: statistics of one compute instance (`host`) for one
interval. `stats` is `none` for the local instance: `c.interval[c.n] = c.local`
(stats/collector.go:336) copies the struct but not the statistics, which stay behind the pointer
`c.local.Total`. -/
structure Inst (α : Type) where
  host : Nat
  interval : Nat
  stats : Option α
  deriving DecidableEq, Repr

/-- What reporters get for one instance. -/
structure InstView (α : Type) where
  host : Nat
  interval : Nat
  stats : α
  deriving DecidableEq, Repr

/-- One report: the collector's interval number, whether it was forced, and the instances. -/
structure ReportOut (α : Type) where
  no : Nat
  forced : Bool
  from' : List (InstView α)
  deriving DecidableEq, Repr

/-- stats/collector.go:55-73 `Collector`. `pending` is `c.interval[0:c.n]`; `reports` is history.
The local instance is host 0. -/
structure Coll (α : Type) where
  nInstances : Nat
  intervalNo : Nat
  pending : List (Inst α)
  localInterval : Nat
  /-- what `c.local.Total` points at -/
  localStats : α
  reports : List (ReportOut α)
  deriving DecidableEq, Repr

variable {α : Type}

/-- stats/collector.go:75-96 `NewCollector`. -/
def Coll.new (n : Nat) (zero : α) : Coll α := ⟨n, 1, [], 0, zero, []⟩

/-- What a reporter sees of an instance at the time of the report. -/
def Inst.view (cur : α) (i : Inst α) : InstView α := ⟨i.host, i.interval, i.stats.getD cur⟩

/-- stats/collector.go:379-395 `Report`. -/
def Coll.report (c : Coll α) (force : Bool) : Coll α × Bool :=
  if force = false ∧ c.pending.length < c.nInstances then (c, false)
  else
    ({ c with
        reports := c.reports ++ [⟨c.intervalNo, force, c.pending.map (Inst.view c.localStats)⟩]
        intervalNo := c.intervalNo + 1
        pending := [] }, true)

/-- `c.interval[c.n] = in; c.n++`: panics if the slice, of length `nInstances`, is full. -/
def Coll.push (c : Coll α) (i : Inst α) : Res (Coll α) :=
  if c.pending.length < c.nInstances then .ok { c with pending := c.pending ++ [i] }
  else .panic

/-- stats/collector.go:292-339 `Collect`; `v` is what the local clients' statistics sum up to (see
`collectStats`). -/
def Coll.collect (c : Coll α) (v : α) : Res (Coll α × Bool) :=
  match Coll.push { c with localInterval := c.localInterval + 1, localStats := v }
      ⟨0, c.localInterval + 1, none⟩ with
  | .ok c => .ok (c.report false)
  | .panic => .panic

/-- stats/collector.go:343-373 `Recv`. -/
def Coll.recv (c : Coll α) (i : Inst α) : Res (Coll α) :=
  if i.interval < c.intervalNo then .ok c
  else if i.interval > c.intervalNo then
    let c := (c.report true).1
    Coll.push { c with pending := [] } i
  else
    match c.push i with
    | .ok c => .ok (c.report false).1
    | .panic => .panic

/-- Operations on the collector: by the ticker or Stop, by the API, and by Stop. Each runs under the
collector's lock (Collect: its part after collecting). -/
inductive CollOp (α : Type) where
  | collect (v : α)
  | recv (host interval : Nat) (v : α)
  | report (force : Bool)
  deriving DecidableEq, Repr

/-- One operation. -/
def Coll.step (c : Coll α) : CollOp α → Res (Coll α)
  | .collect v =>
    match c.collect v with
    | .ok r => .ok r.1
    | .panic => .panic
  | .recv h k v => c.recv ⟨h, k, some v⟩
  | .report f => .ok (c.report f).1

/-- A sequence of operations; a panic ends the process. -/
def Coll.run (c : Coll α) : List (CollOp α) → Res (Coll α)
  | [] => .ok c
  | op :: ops =>
    match c.step op with
    | .ok c => c.run ops
    | .panic => .panic

/-! ## Stop: stats/collector.go:163-288 -/

/-- What happens while Stop waits: time passes (one turn of the loop), statistics arrive, or the
timeout fires. -/
inductive StopEv (α : Type) where
  | tick
  | recv (host interval : Nat) (v : α)
  | timeout
  deriving DecidableEq, Repr

/-- Stop: waiting, or returned with a value. -/
structure Stopping (α : Type) where
  coll : Coll α
  ret : Option Bool
  deriving DecidableEq, Repr

/-- stats/collector.go:229-258: up to the waiting loop. `recent` is
`time.Now().Sub(c.reported) < c.Freq/2`; `freq0` is `c.Freq == 0`; the ticker has stopped. -/
def stopBegin (c : Coll α) (freq0 recent : Bool) (v : α) : Res (Stopping α) :=
  if freq0 then
    match c.collect v with
    | .ok (c, r) => .ok ⟨c, if r ∨ recent then some true else none⟩
    | .panic => .panic
  else if recent then .ok ⟨c, some true⟩
  else
    match c.collect v with
    | .ok (c, r) => .ok ⟨c, if r then some true else none⟩
    | .panic => .panic

/-- stats/collector.go:261-276: one event of the waiting loop. -/
def Stopping.step (s : Stopping α) : StopEv α → Res (Stopping α)
  | .tick =>
    match s.ret with
    | some _ => .ok s
    | none =>
      let (c, r) := s.coll.report false
      .ok ⟨c, if r then some true else none⟩
  | .timeout =>
    match s.ret with
    | some _ => .ok s
    | none =>
      let (c, r) := s.coll.report true
      .ok ⟨c, some r⟩
  | .recv h k v =>
    match s.coll.recv ⟨h, k, some v⟩ with
    | .ok c => .ok { s with coll := c }
    | .panic => .panic

/-- Events while Stop waits. -/
def Stopping.run (s : Stopping α) : List (StopEv α) → Res (Stopping α)
  | [] => .ok s
  | e :: es =>
    match s.step e with
    | .ok s => s.run es
    | .panic => .panic

/-! ## Collect: stats/collector.go:313-333 -/

/-- `c.local.Trx` and `c.local.Total`, and the map `seen`. -/
structure LocalStats where
  total : Stats
  trx : GoMap String Stats
  seen : GoMap String Unit

/-- stats/collector.go:318-331: one client's statistics `s` of one trx. The trx has an entry since
Watch (stats/collector.go:124-126); if it had none, the pointer is nil and Reset panics. -/
def LocalStats.add (l : LocalStats) (name : String) (s : Stats) : Res LocalStats :=
  match l.trx name with
  | none => .panic
  | some cur =>
    let cur := if (l.seen name).isNone then cur.reset else cur
    .ok { total := l.total.combine s
          trx := l.trx.set name (cur.combine s)
          seen := l.seen.set name () }

/-- stats/collector.go:313-333: combine what Swap returned for every client and trx, in order. -/
def collectStats (total : Stats) (trx : GoMap String Stats) (l : List (String × Stats)) :
    Res LocalStats :=
  l.foldl (fun r x => match r with
    | .ok s => s.add x.1 x.2
    | .panic => .panic) (.ok ⟨total.reset, trx, GoMap.empty⟩)

/-! ## Combined reports -/

/-- stats/collector.go:39-50 `Instance.Combine`, its statistics: `dst` is what `in.Total` holds
before; `from[0]` panics if there is none. -/
def combineInto (dst : Stats) : List Stats → Res Stats
  | [] => .panic
  | c :: rest => .ok (rest.foldl Stats.combine (dst.copy c))

/-- stats/stdout.go:72-85 `Stdout.Report`: the statistics of the combined line of each report, if
there is one. `r.all` stays from one report to the next. -/
def stdoutCombined (all : Stats) : List (List Stats) → List (Option Stats)
  | [] => []
  | from' :: later =>
    if from'.length > 1 then
      match combineInto all from' with
      | .ok s => some s :: stdoutCombined s later
      | .panic => none :: stdoutCombined all later
    else none :: stdoutCombined all later

/-- stats/csv.go:59-66 `CSV.Report`: the statistics of the line. -/
def csvCombined (from' : List Stats) : Res Stats := combineInto .new from'

end Finch
