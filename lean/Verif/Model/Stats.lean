import Verif.Model.Base
import Verif.Model.Float
/-!
Model of stats/stats.go: statistics of one client and trx, their combination, percentiles, and the
double buffer `Trx`. Counters are uint64 in Go and unbounded here (2^64 events do not happen).
Logarithms and powers of float64 are inputs: see `lg` and `hv`, and `Model/FloatBuckets.lean` for them
as the code computes them.
-/
namespace Finch

/-- Event types, stats/stats.go:12-17. -/
inductive Ev where
  | read
  | write
  | commit
  | total
  deriving DecidableEq, Repr

/-- stats/stats.go:50 -/
def nBuckets : Nat := 450

/-- The statistics of one event type: one row of each slice in stats/stats.go:26-32. `buckets i`
is used for `i < nBuckets` only. -/
structure EvStats where
  buckets : Nat → Nat
  min : Int
  max : Int
  n : Nat

/-- All zero, stats/stats.go:34-47. -/
def EvStats.zero : EvStats := ⟨fun _ => 0, 0, 0, 0⟩

/-- stats/stats.go:26-32 `Stats`. -/
structure Stats where
  ev : Ev → EvStats
  errors : GoMap Nat Nat

/-- stats/stats.go:34-47 `NewStats`. -/
def Stats.new : Stats := ⟨fun _ => .zero, GoMap.empty⟩

/-- stats/stats.go:57-65: bucket number of a latency. `lg d` stands for the float64
`math.Log(d/base) / logFactor`, rounded down (for values below 0: any negative number). -/
def bucketNo (lg : Int → Int) (d : Int) : Nat :=
  let n := (lg d).toNat + 1
  let n := if lg d < 0 then 0 else n
  if n > nBuckets - 1 then nBuckets - 1 else n

/-- stats/stats.go:68-75 (and 80-87): one event of latency `d` in bucket `n`. -/
def EvStats.record (e : EvStats) (n : Nat) (d : Int) : EvStats :=
  { buckets := fun i => if i = n then e.buckets i + 1 else e.buckets i
    min := if d < e.min ∨ e.n = 0 then d else e.min
    max := if d > e.max then d else e.max
    n := e.n + 1 }

/-- Replace the statistics of one event type. -/
def setEv (f : Ev → EvStats) (t : Ev) (e : EvStats) : Ev → EvStats := fun x => if x = t then e else f x

/-- stats/stats.go:56-89 `Stats.Record`. -/
def Stats.record (lg : Int → Int) (s : Stats) (t : Ev) (d : Int) : Stats :=
  let n := bucketNo lg d
  let ev := setEv s.ev t ((s.ev t).record n d)
  { s with ev := if t ≠ .total then setEv ev .total ((ev .total).record n d) else ev }

/-- stats/stats.go:214-216 `Trx.Error`, on the active statistics. -/
def Stats.error (s : Stats) (code : Nat) : Stats :=
  { s with errors := s.errors.set code ((s.errors code).getD 0 + 1) }

/-- An event as recorded by the client: a query (type and latency) or an error code. -/
inductive TrxEvent where
  | query (t : Ev) (d : Int)
  | error (code : Nat)
  deriving DecidableEq, Repr

/-- One recorded event: stats/stats.go:210-216. -/
def Stats.event (lg : Int → Int) (s : Stats) : TrxEvent → Stats
  | .query t d => s.record lg t d
  | .error code => s.error code

/-- stats/stats.go:92-104 `Stats.Reset`: error codes stay in the map with count 0. -/
def Stats.reset (s : Stats) : Stats :=
  { ev := fun _ => .zero, errors := fun k => (s.errors k).map fun _ => 0 }

/-- stats/stats.go:108-118 `Stats.Copy`: values of `c` into `s`; error codes that only `s` has
stay. -/
def Stats.copy (s c : Stats) : Stats :=
  { ev := c.ev
    errors := fun k =>
      match c.errors k with
      | some v => some v
      | none => s.errors k }

/-- stats/stats.go:125-134: combination of one event type. -/
def EvStats.combine (s c : EvStats) : EvStats :=
  { buckets := fun i => s.buckets i + c.buckets i
    min := if c.min < s.min ∨ s.n = 0 then c.min else s.min
    max := if c.max > s.max then c.max else s.max
    n := s.n + c.n }

/-- stats/stats.go:123-139 `Stats.Combine`. -/
def Stats.combine (s c : Stats) : Stats :=
  { ev := fun t => (s.ev t).combine (c.ev t)
    errors := fun k =>
      match c.errors k with
      | some v => some ((s.errors k).getD 0 + v)
      | none => s.errors k }

/-! ## Percentiles: stats/stats.go:141-179 -/

/-- stats/stats.go:151: `float64(n) / float64(N) * 100` with rounding `rnd`; `none` is NaN (0/0).
Conversions of counts to float64 are taken as exact (counts below 2^53). -/
def freq (rnd : ℚ → ℚ) (n N : Nat) : Option ℚ :=
  if N = 0 then none else some (rnd (rnd (n / N) * 100))

/-- `math.Modf`'s integer part, as used at stats/stats.go:161-162 for values from 0 to 100. -/
def intPart (x : ℚ) : Int := x.floor

/-- stats/stats.go:159-171: the value reported for percentile `p` at bucket `i` with frequency `f`.
`hv i` stands for `uint64(base * math.Pow(factor, i))`. -/
def pctValue (hv : Nat → Nat) (p f : ℚ) (i : Nat) : Nat :=
  if intPart p ≠ intPart f ∧ 0 < i then (hv i + hv (i - 1)) / 2
  else if i = 0 then hv 0
  else hv i

/-- The loop stats/stats.go:149-177 from bucket `i` on: `left` buckets to go, running count `n`,
percentiles not yet found. `break` ends the loop after the last one. Result: the values found; the
rest stays 0. -/
def pctLoop (rnd : ℚ → ℚ) (hv : Nat → Nat) (e : EvStats) : (left i n : Nat) → List ℚ → List Nat
  | 0, _, _, ps => ps.map fun _ => 0
  | _ + 1, _, _, [] => []
  | left + 1, i, n, p :: ps =>
    let n := n + e.buckets i
    match freq rnd n e.n with
    | none => pctLoop rnd hv e left (i + 1) n (p :: ps)
    | some f =>
      if f ≥ p then pctValue hv p f i :: pctLoop rnd hv e left (i + 1) n ps
      else pctLoop rnd hv e left (i + 1) n (p :: ps)

/-- stats/stats.go:141-179 `Stats.Percentiles`. -/
def Stats.percentiles (rnd : ℚ → ℚ) (hv : Nat → Nat) (s : Stats) (t : Ev) (ps : List ℚ) : List Nat :=
  pctLoop rnd hv (s.ev t) nBuckets 0 0 ps

/-! ## Trx: stats/stats.go:190-231 -/

/-- Where the client is: between events, or with the pointer of the active buffer loaded
(`true`: buffer a) and about to record. -/
inductive RecPc where
  | idle
  | loaded (onA : Bool) (e : TrxEvent)
  deriving DecidableEq, Repr

/-- The double buffer with one client and one collector. A buffer is represented by the list of
events recorded in it since it was last reset (their statistics are a function of that list: C24).
`readA`/`readB` say how many of them the collector has read; they, `recorded`, `reported`, `lost` and `swaps`
are history. -/
structure TrxState where
  bufA : List TrxEvent
  bufB : List TrxEvent
  onA : Bool
  pc : RecPc
  /-- buffer returned by Swap and not yet read by the collector -/
  toRead : Option Bool
  readA : Nat
  readB : Nat
  recorded : List TrxEvent
  reported : List TrxEvent
  lost : List TrxEvent
  swaps : Nat

/-- stats/stats.go:198-208 `NewTrx`. -/
def TrxState.init : TrxState :=
  ⟨[], [], true, .idle, none, 0, 0, [], [], [], 0⟩

/-- Atomic actions of the client and the collector. -/
inductive TrxStep where
  /-- client: `t.sp.Load()` (stats/stats.go:211, 215) -/
  | load (e : TrxEvent)
  /-- client: record into the loaded buffer. Simplification: the whole of Record is one step. -/
  | write
  /-- collector: `Swap` (stats/stats.go:218-231). Simplification: Reset and Store are one step;
  nobody else has the buffer that is reset unless a client loaded it before the last swap. -/
  | swap
  /-- collector: read the returned statistics (stats/collector.go:317-332). Simplification: one
  step. -/
  | read
  deriving DecidableEq, Repr

/-- Effect of an action; impossible actions change nothing. The collector swaps again only after it
read what the last swap returned (stats/collector.go:308-332, called from one goroutine at a
time). -/
def TrxState.step (s : TrxState) : TrxStep → TrxState
  | .load e =>
    match s.pc with
    | .idle => { s with pc := .loaded s.onA e, recorded := s.recorded ++ [e] }
    | _ => s
  | .write =>
    match s.pc with
    | .loaded true e => { s with pc := .idle, bufA := s.bufA ++ [e] }
    | .loaded false e => { s with pc := .idle, bufB := s.bufB ++ [e] }
    | .idle => s
  | .swap =>
    match s.toRead with
    | some _ => s
    | none =>
      if s.onA then
        { s with
          bufB := [], readB := 0, lost := s.lost ++ s.bufB.drop s.readB
          onA := false, toRead := some true, swaps := s.swaps + 1 }
      else
        { s with
          bufA := [], readA := 0, lost := s.lost ++ s.bufA.drop s.readA
          onA := true, toRead := some false, swaps := s.swaps + 1 }
  | .read =>
    match s.toRead with
    | some true =>
      { s with toRead := none, readA := s.bufA.length, reported := s.reported ++ s.bufA }
    | some false =>
      { s with toRead := none, readB := s.bufB.length, reported := s.reported ++ s.bufB }
    | none => s

/-- A whole schedule. -/
def TrxState.run (s : TrxState) (steps : List TrxStep) : TrxState := steps.foldl TrxState.step s

end Finch
