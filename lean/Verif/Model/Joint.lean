import Verif.Model.Client
/-!
All clients of a stage together: the client machine of `Verif.Model.Client`, with the iteration counters
that the clients share (client/client.go:227-236, workload/workload.go:144, 158, 180-187). The clients make
steps at any time, in any order; each `atomic.AddUint32` is a step of its own.
-/
namespace Finch

/-- Where a client is in the loop head, client/client.go:227-236: before the first counter, after it (with
its value), after the second one (with both values). -/
inductive HPh where
  | start | eg (n : Nat) | cg (n m : Nat)
  deriving DecidableEq, Repr

/-- The iteration counters by address, the clients, and where they are in the loop head. -/
structure Joint where
  ctr : Nat → Nat
  cl : Nat → CState
  ph : Nat → HPh

def Joint.init : Joint := ⟨fun _ => 0, fun _ => .init, fun _ => .start⟩

/-- client/client.go:227 and 230: `limit > 0 && atomic.AddUint32(ptr, 1) > limit`. The counters after it, the
value that was compared, and whether it is over the limit. -/
def addIter (o : Option (Nat × Nat)) (ctr : Nat → Nat) : (Nat → Nat) × Nat × Bool :=
  match o with
  | none => (ctr, 0, false)
  | some (lim, p) =>
    if lim > 0 then (upd ctr p (u32 (ctr p + 1)), u32 (ctr p + 1), decide (u32 (ctr p + 1) > lim))
    else (ctr, 0, false)

/-- A step of the client itself, with these values of the counters. -/
def Joint.go (c : Cli) (s : Joint) (k : Nat) (a : Ans) (n m : Nat) : Joint :=
  { s with cl := upd s.cl k ((s.cl k).step c { a with egCount := n, cgCount := m })
           ph := upd s.ph k .start }

/-- A step of client `k`; `a` is what the rest of the world answers. -/
def Joint.step (tbl : GoMap Nat Nat) (cs : List AClient) (s : Joint) (k : Nat) (a : Ans) : Joint :=
  match cs[k]? with
  | none => s
  | some x =>
    if (s.cl k).pc = .head then
      match s.ph k with
      | .start =>
        let r := addIter x.iterExecGroup s.ctr
        if r.2.2 then { s with ctr := r.1 }.go (x.cli tbl) k a r.2.1 0
        else { s with ctr := r.1, ph := upd s.ph k (.eg r.2.1) }
      | .eg n =>
        let r := addIter x.iterClients s.ctr
        if r.2.2 then { s with ctr := r.1 }.go (x.cli tbl) k a n r.2.1
        else { s with ctr := r.1, ph := upd s.ph k (.cg n r.2.1) }
      | .cg n m => s.go (x.cli tbl) k a n m
    else s.go (x.cli tbl) k a 0 0

/-- A schedule. -/
def Joint.run (tbl : GoMap Nat Nat) (cs : List AClient) (s : Joint) (l : List (Nat × Ans)) : Joint :=
  l.foldl (fun s x => s.step tbl cs x.1 x.2) s

end Finch
