import Verif.Model.FloatBuckets
import Verif.Model.ReportTime
import Verif.Model.Collector
import Verif.Model.Limit
/-!
Go unit tests run on the model: stats/stats_test.go, stats/collector_test.go, stats/reporter_test.go
and limit/data_test.go. Tests of the model, not proofs of properties (see Conformance/Trx.lean). Floats
are rounded as in the code.
-/
namespace Finch.Conformance

/-- `math.Log(d / 10)` of the latencies in the tests, as float64 prints them. -/
def lnTable : List (Int × ℚ) :=
  [(125000, 9.433483923290392), (200000, 9.903487552536127), (255000, 10.146433731146518),
   (289000, 10.271596874100524), (302000, 10.31559720336296), (321000, 10.376611309118108),
   (450000, 10.714417768752456), (605000, 11.010398644018933), (100, 2.302585092994046),
   (111, 2.4069451083182885), (200, 2.995732273553991), (222, 3.100092288878234),
   (210, 3.044522437723423), (110, 2.3978952727983707), (190, 2.9444389791664403),
   (290, 3.367295829986474), (310, 3.4339872044851463), (390, 3.6635616461296463)]

/-- `math.Log` in the tests. -/
def lnT (x : ℚ) : ℚ := f64 ((List.lookup (roundEven (x * 10)) lnTable).getD 0)

/-- Bucket numbers in the tests. -/
def lgT : Int → Int := lgF lnT

/-- The expected buckets of stats/collector_test.go:66-68 and 147-155 and the comments of
stats/stats_test.go:141-148 (there the upper end of bucket `n` is that of number `n`). 255000 (line 143) is
left out: its comment has upper end 251188, which is less than 255000. -/
example : [100, 111, 200, 210, 222].map (bucketNo lgT) = [50, 53, 66, 67, 68] := by decide +kernel
example : [125000, 200000, 289000, 302000, 321000, 450000, 605000].map (bucketNo lgT) =
    [205, 216, 224, 225, 226, 233, 240] := by decide +kernel

/-- The upper ends in the comments of stats/stats_test.go:141-148. -/
example : [205, 216, 224, 225, 226, 233, 240].map hvF =
    [125892, 208929, 301995, 316227, 331131, 457088, 630957] := by decide +kernel

/-- Record the same event `n` times. -/
def recordN (s : Stats) (t : Ev) (d : Int) (n : Nat) : Stats := n.repeat (fun s => s.record lgT t d) s

/-- The events of TestBasicStats. -/
def basic : Stats := recordN (recordN Stats.new .read 200 3) .total 100 2

/-- TestBasicStats, stats/stats_test.go:39-60. -/
example : (basic.ev .total).n = 5 ∧ (basic.ev .read).n = 3 := by decide +kernel

/-- The client records an event. -/
def rec1 (t : Ev) (d : Int) : List TrxStep := [.load (.query t d), .write]

/-- TestTrxStats, stats/stats_test.go:62-89: what the first Swap returns has the events before it, and
the buffers alternate (`toRead` names the buffer returned). -/
example :
    let s1 := TrxState.init.run (rec1 .read 200 ++ rec1 .read 200 ++ rec1 .read 200 ++ rec1 .total 100 ++
      rec1 .total 100 ++ [.swap])
    let a := s1.bufA.foldl (Stats.event lgT) Stats.new
    let s2 := s1.run [.read, .swap]
    let s3 := s2.run [.read, .swap]
    (a.ev .total).n = 5 ∧ (a.ev .read).n = 3 ∧ s1.toRead = some true ∧ s2.toRead = some false ∧
      s3.toRead = some true := by decide +kernel

/-- Statistics with these numbers in the buckets of one event type. -/
def ofBuckets (t : Ev) (l : List (Nat × Nat)) : Stats :=
  let e : EvStats := ⟨fun i => (List.lookup i l).getD 0, 0, 0, (l.map (·.2)).sum⟩
  ⟨setEv Stats.new.ev t e, GoMap.empty⟩

/-- TestPecentiles_P9s, stats/stats_test.go:139-174. Recording an event adds one to its bucket, so the
buckets are given with their counts. -/
example : (ofBuckets .total ([(125000, 1), (200000, 10), (255000, 20), (289000, 50), (302000, 100),
      (321000, 70), (450000, 10), (605000, 1)].map fun x : Int × Nat => (bucketNo lgT x.1, x.2))).percentiles
        f64 hvF .total [50, 95, 99, f64 99.9] = [309111, 331131, 457088, 616758] := by decide +kernel

/-- TestPecentiles_P50, stats/stats_test.go:176-203. -/
example : (ofBuckets .total ([200000, 255000, 289000, 302000, 321000, 450000].map
      fun d : Int => (bucketNo lgT d, 10))).percentiles f64 hvF .total [50] = [301995] := by decide +kernel

/-- What the tests compare of the statistics of an event: count, least and largest latency, and buckets
that are not empty. -/
structure EvView where
  n : Nat
  min : Int
  max : Int
  buckets : List (Nat × Nat)
  deriving DecidableEq, Repr

/-- The view of the statistics of an event. -/
def evView (e : EvStats) : EvView :=
  ⟨e.n, e.min, e.max, (List.range nBuckets).filterMap fun i =>
    if e.buckets i = 0 then none else some (i, e.buckets i)⟩

/-- The view of all events: read, write, commit, total. -/
def statsView (s : Stats) : List EvView :=
  [Ev.read, Ev.write, Ev.commit, Ev.total].map fun t => evView (s.ev t)

/-- No events. -/
def zeroEv : EvView := ⟨0, 0, 0, []⟩

/-- Reads only. -/
def readsOnly (e : EvView) : List EvView :=
  [e, zeroEv, zeroEv, e]

/-- The view of what a collection gives for the total and for a trx. -/
def localView (name : String) (r : Res LocalStats) :
    Option (List EvView ×
      Option (List EvView)) :=
  match r with
  | .ok l => some (statsView l.total, (l.trx name).map statsView)
  | .panic => none

/-- A trx that is watched. -/
def watched (name : String) : GoMap String Stats := GoMap.empty.set name Stats.new

/-- Reads of these latencies. -/
def reads (l : List Int) : Stats := l.foldl (fun s d => s.record lgT .read d) Stats.new

/-- TestCollector_1Client, stats/collector_test.go:16-87: statistics. -/
example :
    localView "t1" (collectStats Stats.new (watched "t1") [("t1", reads [210])]) =
      some (readsOnly ⟨1, 210, 210, [(67, 1)]⟩, some (readsOnly ⟨1, 210, 210, [(67, 1)]⟩)) := by
  decide +kernel

/-- TestCollector_1Client: interval, seconds and runtime. -/
example : (CollClock.new (-6000000000)).run [-1000000000] = [⟨1, 5, 5⟩] := by decide +kernel

/-- TestCollector_2Clients, stats/collector_test.go:89-179. -/
example :
    localView "t1" (collectStats Stats.new (watched "t1")
      [("t1", reads [100, 111]), ("t1", reads [200, 222])]) =
      some (readsOnly ⟨4, 100, 222, [(50, 1), (53, 1), (66, 1), (68, 1)]⟩,
        some (readsOnly ⟨4, 100, 222, [(50, 1), (53, 1), (66, 1), (68, 1)]⟩)) := by
  decide +kernel

/-- The statistics if there was no panic. -/
def resView : Res Stats → Option (List EvView)
  | .ok s => some (statsView s)
  | .panic => none

/-- TestCollector_Combine, stats/collector_test.go:181-249. -/
example :
    resView (combineInto Stats.new [reads [100, 111, 200, 222]]) =
        some (readsOnly ⟨4, 100, 222, [(50, 1), (53, 1), (66, 1), (68, 1)]⟩) ∧
      resView (combineInto (Stats.new.copy (reads [100, 111, 200, 222]))
          [reads [100, 111, 200, 222], reads [210]]) =
        some (readsOnly ⟨5, 100, 222, [(50, 1), (53, 1), (66, 1), (67, 1), (68, 1)]⟩) := by
  decide +kernel

/-- `strconv.ParseFloat` of the texts in the test. -/
def parseF (t : Text) : Option FVal :=
  if t = "95".toList then some (.fin 95) else if t = "99".toList then some (.fin 99)
  else if t = "99.9".toList then some (.fin (f64 99.9)) else none

/-- TestParsePercentiles, stats/reporter_test.go:14-40. -/
example : ["95", "95,99", "P99.9"].map (fun s => parsePercentiles parseF s.toList) =
    [some [("P95".toList, .fin 95)], some [("P95".toList, .fin 95), ("P99".toList, .fin 99)],
      some [("P99.9".toList, .fin (f64 99.9))]] ∧
    parsePercentiles parseF [] = some defaultPercentiles := by decide +kernel

/-- The statistics of TestCSV. -/
def csvStats : Stats :=
  [(Ev.read, 110), (.read, 190), (.write, 210), (.write, 290), (.commit, 310), (.commit, 390)].foldl
    (fun s (x : Ev × Int) => s.record lgT x.1 x.2) Stats.new

/-- TestCSV, stats/reporter_test.go:42-88: header and line. -/
example : reportHeader ["P999".toList] =
    "interval,duration,runtime,clients,QPS,min,P999,max,r_QPS,r_min,r_P999,r_max,w_QPS,w_min,w_P999,w_max,TPS,c_min,c_P999,c_max,errors,compute".toList := by
  decide +kernel
example : csvReport (goLineEnv 0 fun s t => s.percentiles f64 hvF t [f64 99.9]) (fun _ => 0)
      [⟨"local".toList, 1, 1, 2, 2, csvStats, 0⟩] =
    some "1,2.0,2.0,1,3,110,389,390,1,110,185,190,1,210,294,290,1,310,389,390,0,local".toList := by
  decide +kernel

/-- TestOr, limit/data_test.go:9-30: the two limits are at 0, 1 and 1, and 50 and 50 rows. -/
example (c : Conn) :
    let lim (a b : Int) : Lim := .or (.rows (some ⟨100, a⟩)) (.rows (some ⟨50, b⟩))
    let more (l : Lim) : Option Bool := match l.more c with
      | .ok r => some r.2
      | .panic => none
    [more (lim 0 0), more (lim 1 1), more (lim 1 50)] = [some true, some true, some false] := by
  rfl

end Finch.Conformance
