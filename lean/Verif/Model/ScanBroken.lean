import Verif.Model.Scan
/-!
Model of trx/trx.go `File.Load` when reading the file fails.
-/
namespace Finch

/-- trx/trx.go:123-171 `File.Load` when reading fails after `content`. `bufio.Scanner` reads only when there is no more
line in its buffer, then keeps the error, and gives out what it has as the last line. So there is no error yet if a line
before that is an EOF mark. A failing read gives no bytes (os.File). -/
def loadBroken (set : TrxSet) (env : TrxEnv) (data : GoMap String DataCfg) (content : Text) : LoadEnd :=
  let sc := scanFile (fileLines content)
  match loadFile set ⟨env, data, some sc.1⟩ with
  | .ok s => if (scanFile (splitOn1 '\n' content).dropLast).1.any eofMark then .ret (.ok s) else .exit
  | o => .ret o

end Finch
