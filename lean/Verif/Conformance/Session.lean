import Verif.Conformance.Data
import Verif.Model.Session
/-!
Go unit tests run on the model: boot/scope_test.go. Tests of the model, not proofs of properties (see
Conformance/Trx.lean).
-/
namespace Finch.Conformance

/-- Formatting that the tests do not need. -/
def noOther : FmtOther := ⟨fun _ _ => [], fun _ _ => []⟩

/-- The copy of a generator of test/run/scope at an address. Random numbers are all different: the address
and the number of the call. -/
def scopeGen (k : String) (a : Nat) : DGen :=
  let name := if k = "@a" then "auto-inc" else if k = "@r" then "int" else "client-id"
  let ps := if k = "@r" then params [("max", "1000000")]
    else if k = "@clientid" then params [("ids", "exec-group,client-group,client,iter,trx,statement")] else []
  ⟨(builtinGen genEnv name ps).getD .noop, 0, fun n => ⟨⟨1000 * (a + 1) + n, 0, 0⟩, 0, [], [], ⟨0, 0, 0, 0, 0, 0, 0, 0⟩⟩⟩

/-- A client step without errors. -/
def okStep (n : ClientNo) : SIn := ⟨n, ⟨false, none, true, true, 0, 0⟩, fun _ => [], [], 0⟩

/-- The workload of test/run/scope. -/
def scopeWorkload : List CGCfg :=
  [{ clients := "1", group := "__A__", iter := "2" }, { clients := "1", group := "__A__", iter := "1" },
   { clients := "1", group := "__B__", iter := "1" }]

/-- What MySQL gets. -/
def scopeSent (scope : String) : List String :=
  match prepT [scope001 scope, scope002] scopeWorkload false with
  | .ok p =>
    let cs := cliAt GoMap.empty p.execGroups
    ((Sess.init cs p.st.sl.scope.made ⟨scopeGen, fun _ => none⟩).run noOther (dgenOps genEnv) cs
      (List.replicate 30 (okStep (0, 0, 0)) ++ List.replicate 20 (okStep (0, 1, 0)) ++
        List.replicate 20 (okStep (1, 0, 0)))).hist.filterMap fun e =>
      match e with
      | .sent _ _ _ (.text t) => some (String.ofList t)
      | _ => none
  | _ => []

/-- A row of the table. -/
def scopeRow (vals : String) : String :=
  "INSERT INTO finch.scopetest (a, r, eg, cg, c, iter, trx, s) VALUES (" ++ vals ++ ")"

/-- TestScope_Statement, boot/scope_test.go:127-169: the rows inserted; random numbers all different. -/
example : scopeSent "statement" =
    ["1, 2000, 1, 1, 1, 1, 1, 1", "1, 5000, 1, 1, 1, 1, 1, 2", "1, 8000, 1, 1, 1, 1, 2, 3",
     "2, 2001, 1, 1, 1, 2, 3, 4", "2, 5001, 1, 1, 1, 2, 3, 5", "2, 8001, 1, 1, 1, 2, 4, 6",
     "1, 11000, 1, 2, 1, 1, 1, 1", "1, 14000, 1, 2, 1, 1, 1, 2", "1, 17000, 1, 2, 1, 1, 2, 3",
     "1, 20000, 2, 1, 1, 1, 1, 1", "1, 23000, 2, 1, 1, 1, 1, 2", "1, 26000, 2, 1, 1, 1, 2, 3"].map scopeRow := by
  decide +kernel

/-- TestScope_Trx, boot/scope_test.go:171-215: the rows inserted; random numbers aabccdeefggh. -/
example : scopeSent "trx" =
    ["1, 2000, 1, 1, 1, 1, 1, 1", "1, 2000, 1, 1, 1, 1, 1, 2", "1, 6000, 1, 1, 1, 1, 2, 3",
     "2, 2001, 1, 1, 1, 2, 3, 4", "2, 2001, 1, 1, 1, 2, 3, 5", "2, 6001, 1, 1, 1, 2, 4, 6",
     "1, 9000, 1, 2, 1, 1, 1, 1", "1, 9000, 1, 2, 1, 1, 1, 2", "1, 13000, 1, 2, 1, 1, 2, 3",
     "1, 16000, 2, 1, 1, 1, 1, 1", "1, 16000, 2, 1, 1, 1, 1, 2", "1, 20000, 2, 1, 1, 1, 2, 3"].map scopeRow := by
  decide +kernel

/-- TestScope_Iter, boot/scope_test.go:217-260: the rows inserted; random numbers aaabbbcccddd. -/
example : scopeSent "iter" =
    ["1, 2000, 1, 1, 1, 1, 1, 1", "1, 2000, 1, 1, 1, 1, 1, 2", "1, 2000, 1, 1, 1, 1, 2, 3",
     "2, 2001, 1, 1, 1, 2, 3, 4", "2, 2001, 1, 1, 1, 2, 3, 5", "2, 2001, 1, 1, 1, 2, 4, 6",
     "1, 7000, 1, 2, 1, 1, 1, 1", "1, 7000, 1, 2, 1, 1, 1, 2", "1, 7000, 1, 2, 1, 1, 2, 3",
     "1, 12000, 2, 1, 1, 1, 1, 1", "1, 12000, 2, 1, 1, 1, 1, 2", "1, 12000, 2, 1, 1, 1, 2, 3"].map scopeRow := by
  decide +kernel

/-- TestScope_Client, boot/scope_test.go:262-303: the rows inserted; random numbers aaaaaabbbccc. -/
example : scopeSent "client" =
    ["1, 2000, 1, 1, 1, 1, 1, 1", "1, 2000, 1, 1, 1, 1, 1, 2", "1, 2000, 1, 1, 1, 1, 2, 3",
     "1, 2000, 1, 1, 1, 2, 3, 4", "1, 2000, 1, 1, 1, 2, 3, 5", "1, 2000, 1, 1, 1, 2, 4, 6",
     "1, 7000, 1, 2, 1, 1, 1, 1", "1, 7000, 1, 2, 1, 1, 1, 2", "1, 7000, 1, 2, 1, 1, 2, 3",
     "1, 12000, 2, 1, 1, 1, 1, 1", "1, 12000, 2, 1, 1, 1, 1, 2", "1, 12000, 2, 1, 1, 1, 2, 3"].map scopeRow := by
  decide +kernel

end Finch.Conformance
