import Verif.Model.Prepare
/-!
Model of the stages of a benchmark on one instance: compute/server.go:45-71, 103-114 (and
compute/client.go:48-60, 115-120 on a remote instance). All stages use one data scope, which is reset before
each stage (data/scope.go:125-135).
-/
namespace Finch

/-- `Server.gds`: the data scope, and its keys as trx.Load sees them. -/
structure StagesSt where
  scope : DataScope
  keys : GoMap String TKey

/-- compute/server.go:42 `data.NewScope()`. -/
def StagesSt.new : StagesSt := ⟨DataScope.new, GoMap.empty⟩

/-- compute/server.go:103-114: reset the data scope and prepare the next stage. -/
def StagesSt.prepare (b : StagesSt) (p : PrepEnv) : Out (StagesSt × Prepared) := do
  let s := b.scope.reset
  let r ← Finch.prepare p s fun n => if (s.keys n).isSome then b.keys n else none
  pure (⟨r.st.sl.scope, r.set.keys⟩, r)

/-- compute/server.go:52-69: the stages in order; an error ends the benchmark. -/
def StagesSt.all (b : StagesSt) : List PrepEnv → Out (List Prepared)
  | [] => .ok []
  | p :: ps => do
    let (b, r) ← b.prepare p
    let rs ← b.all ps
    pure (r :: rs)

end Finch
