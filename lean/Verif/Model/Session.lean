import Verif.Model.Sql
/-!
Model of the clients of a stage together with their data generators: client/client.go:268-345 with
data/scope.go. Clients take their steps (Model/Client) in any order. What a step does with data is added:
the value functions of a statement are called (lines 268-275), the statement is sent with the values
(lines 282-285, 316-320), rows and insert ids are saved (lines 293-305, 340-343).

Simplified: the value functions of one statement are called in one step. Calls of different clients
overlap only in generators with a scope above client, which C05 and C06 treat step by step.
-/
namespace Finch

/-- A client by the indexes of its execution group, its client group and in that group. -/
abbrev ClientNo := Nat × Nat × Nat

/-- What MySQL gets for an execution: a text, or the query of a prepared statement with values. -/
inductive Sent where
  | text (t : Text)
  | prepared (query : Text) (args : List GoVal)
  deriving DecidableEq, Repr

/-- A generator: `Values` and `Scan`. -/
structure GenOps (G : Type) where
  values : GenFun G (List GoVal)
  scan : Mem → Scanned → G → G

/-- data/scope.go:193 `ScopedGenerator.Scan`. -/
def ScopedGen.scan {G V : Type} (f : G → G) (s : ScopedGen G V) : ScopedGen G V := { s with g := f s.g }

/-- What happened. `gen`: client `n` called the value functions of statement `i`, with what each of them
returned. `sent`: client `n` executed statement `i` on connection `conn`. -/
inductive SEv where
  | gen (n : ClientNo) (i : Nat) (cnt : RunCount) (vs : List (InRef × Option (List GoVal)))
  | sent (n : ClientNo) (i conn : Nat) (what : Sent)
  deriving DecidableEq, Repr

/-- A saved value: client `n` read it with statement `i`, as output number `col` (`none`: the insert id).
`time` is the number of events before. -/
structure SaveEv where
  time : Nat
  n : ClientNo
  i : Nat
  col : Option Nat
  val : GoVal
  deriving DecidableEq, Repr

/-- The value scanned, when it is scanned. -/
def Scanned.goVal (m : Mem) : Scanned → GoVal
  | .null => .nil
  | .bytes b => .str (bytesText (m b))
  | .other v => goI64 v

/-- All clients, the generators by address, `c.values[i]` of each client, what happened, and what was
saved. -/
structure Sess (G : Type) where
  cli : ClientNo → CState
  gens : Nat → ScopedGen G (List GoVal)
  vals : ClientNo → Nat → List GoVal
  hist : List SEv
  saves : List SaveEv

/-- One step of client `n`: what the world answers, and the rows it reads (with the memory their bytes
are in) or the insert id. -/
structure SIn where
  n : ClientNo
  ans : Ans
  mem : Mem
  rows : List (List Scanned)
  id : Int

variable {G : Type}

/-- client/client.go:273-275: call the value functions of a statement in order. A value function is
`Call` or `Values` of a generator (workload/workload.go:232-236). -/
def callInputs (ops : GenOps G) (cnt : RunCount) (gens : Nat → ScopedGen G (List GoVal)) :
    List InRef → (Nat → ScopedGen G (List GoVal)) × List (InRef × Option (List GoVal))
  | [] => (gens, [])
  | r :: rs =>
    let x := (gens r.gen).use ops.values ⟨r.explicit, cnt⟩
    let y := callInputs ops cnt (fun a => if a = r.gen then x.1 else gens a) rs
    (y.1, (r, x.2) :: y.2)

/-- `rows.Scan(outputs...)` and `InsertId.Scan(id)`: each value to the generator at its place. -/
def scanRow (ops : GenOps G) (mem : Mem) (gens : Nat → ScopedGen G (List GoVal)) :
    List (Option Nat × Scanned) → Nat → ScopedGen G (List GoVal)
  | [] => gens
  | (none, _) :: xs => scanRow ops mem gens xs
  | (some a, v) :: xs =>
    scanRow ops mem (fun b => if b = a then (gens a).scan (ops.scan mem v) else gens b) xs

/-- client/client.go:298-303: the rows. After an error of `Scan` no more rows are read, so `rows` are
those read. -/
def scanRows (ops : GenOps G) (mem : Mem) (outs : List (Option Nat)) (gens : Nat → ScopedGen G (List GoVal))
    (rows : List (List Scanned)) : Nat → ScopedGen G (List GoVal) :=
  rows.foldl (fun g row => scanRow ops mem g (outs.zip row)) gens

/-- client/client.go:282-285, 316-320: what is sent. A prepared statement has the query of the statement
it was prepared for. -/
def sentFor (o : FmtOther) (c : Cli) (i : Nat) (ps : Option (Nat × Nat)) (vals : List GoVal) : Sent :=
  match ps with
  | some (_, j) => .prepared (((c.statements[j]?).map (·.query)).getD []) vals
  | none => .text (goSprintf o (((c.statements[i]?).map (·.query)).getD []) vals)

/-- What an event of client `n` does with data. -/
def Sess.event (o : FmtOther) (ops : GenOps G) (c : Cli) (x : SIn) (s : Sess G) (e : CEv) : Sess G :=
  match e with
  | .gen i cnt =>
    let r := callInputs ops cnt s.gens (((c.data[i]?).map (·.inputs)).getD [])
    { s with gens := r.1
             vals := fun n j => if n = x.n ∧ j = i
               then fillValues (s.vals n j) (r.2.map fun p => p.2.getD []) else s.vals n j
             hist := s.hist ++ [.gen x.n i cnt r.2] }
  | .exec i conn ps => { s with hist := s.hist ++ [.sent x.n i conn (sentFor o c i ps (s.vals x.n i))] }
  | .insertId i =>
    { s with gens := scanRow ops x.mem s.gens [((c.data[i]?).bind (·.insertId), .other x.id)]
             saves := s.saves ++ [⟨s.hist.length, x.n, i, none, goI64 x.id⟩] }
  | _ => s

/-- The rows read in a step of client `n`, client/client.go:293-305. -/
def Sess.readRows (ops : GenOps G) (c : Cli) (x : SIn) (s : Sess G) : Sess G :=
  match (s.cli x.n).pc with
  | .scan i =>
    let outs := ((c.data[i]?).map (·.outputs)).getD []
    { s with gens := scanRows ops x.mem outs s.gens x.rows
             saves := s.saves ++ x.rows.flatMap fun row => ((outs.zip row).zipIdx).map fun p =>
               ⟨s.hist.length, x.n, i, some p.2, p.1.2.goVal x.mem⟩ }
  | _ => s

/-- One step of a client. -/
def Sess.step (o : FmtOther) (ops : GenOps G) (cs : ClientNo → Cli) (s : Sess G) (x : SIn) : Sess G :=
  let old := s.cli x.n
  let new := old.step (cs x.n) x.ans
  let s := s.readRows ops (cs x.n) x
  let s := (new.trace.drop old.trace.length).foldl (Sess.event o ops (cs x.n) x) s
  { s with cli := fun n => if n = x.n then new else s.cli n }

/-- The clients of an allocation (stage/stage.go:118-190 runs them). Where there is none, one without
statements. -/
def cliAt (tbl : GoMap Nat Nat) (res : List (List ACGroup)) (n : ClientNo) : Cli :=
  match ((res[n.1]?).bind (·[n.2.1]?)).bind (·.clients[n.2.2]?) with
  | some a => a.cli tbl
  | none => ⟨RunLevel.zero, tbl, [], [], [], "", 0, 0, 0, false, false⟩

/-- Generators at the beginning of a stage: `new` is the copy of the real generator of a data key at an
address; `kept` are the scoped generators that earlier stages left, by address. -/
structure GenStart (G : Type) where
  new : String → Nat → G
  kept : Nat → Option (ScopedGen G (List GoVal))

/-- Before any client runs. `made` are the generators of the data scope (data/scope.go:108-120). Those with
stage or global scope may be of an earlier stage (data/scope.go:126-128). `c.values[i]` has a nil value for
each input (client/client.go:72-77). -/
def Sess.init (cs : ClientNo → Cli) (made : GoMap Nat GenId) (g : GenStart G) : Sess G :=
  { cli := fun _ => CState.init
    gens := fun a =>
      let sc := ((made a).map (·.scope)).getD .value
      let new := ScopedGen.new sc (g.new (((made a).map (·.dataKey)).getD "") a)
      if sc = .stage ∨ sc = .global then (g.kept a).getD new else new
    vals := fun n i => List.replicate ((((cs n).statements[i]?).map (·.inputs.length)).getD 0) .nil
    hist := []
    saves := [] }

/-- A run. -/
def Sess.run (o : FmtOther) (ops : GenOps G) (cs : ClientNo → Cli) (s : Sess G) (xs : List SIn) : Sess G :=
  xs.foldl (Sess.step o ops cs) s

/-! ### Built-in generators with their random draws -/

/-- A built-in generator, the number of times it was called, and what it draws at each call. -/
structure DGen where
  gen : Gen
  calls : Nat
  draw : Nat → GenDraw

/-- `Values` and `Scan` of a built-in generator. A panic or too few random words give no values. -/
def dgenOps (env : GenEnv) : GenOps DGen where
  values := fun g rc =>
    match g.gen.values env { g.draw g.calls with rc := rc } with
    | .vals g' vs => ({ g with gen := g', calls := g.calls + 1 }, vs)
    | _ => ({ g with calls := g.calls + 1 }, [])
  scan := fun m x g => { g with gen := g.gen.scan m x }

end Finch
