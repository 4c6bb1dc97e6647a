import Verif.Model.Trx
import Verif.Model.Config
/-!
Model of trx/trx.go `File.Load` from the content of the file on: `bufio.Scanner` with its limit on the
length of a line, and the check of its error at the end (trx/trx.go:131-162).
-/
namespace Finch

/-- Length in bytes of a text in UTF-8. -/
def byteLen (t : Text) : Nat := (t.map Char.utf8Size).sum

/-- `bufio.MaxScanTokenSize`, the size of the scanner's buffer: a line is refused if the buffer is full
before its end is found. -/
def maxToken : Nat := 65536

/-- The lines of a file: what is between newlines. Nothing comes after a newline at the end. -/
def fileLines (content : Text) : List Text :=
  let ls := splitOn1 '\n' content
  if ls.getLast? = some [] then ls.dropLast else ls

/-- `bufio.ScanLines` drops a carriage return at the end of a line. -/
def dropCR (l : Text) : Text := if l.getLast? = some '\r' then l.dropLast else l

/-- `bufio.Scanner`: the lines up to the first that is too long, and whether there is one. -/
def scanFile : List Text → List Text × Bool
  | [] => ([], false)
  | l :: ls => if maxToken ≤ byteLen l then ([], true) else ((dropCR l :: (scanFile ls).1), (scanFile ls).2)

/-- Does the line end the file, trx/trx.go:134-137 and 180-182. -/
def eofMark (l : Text) : Bool := trimSpace l = "-- EOF".toList

/-- What `File.Load` does: return, or end the process (`log.Fatal`). -/
inductive LoadEnd where
  | ret (o : Out TrxSet)
  | exit

/-- trx/trx.go:123-171 `File.Load` for a file with this content. The scanner's error is looked at last
(trx/trx.go:160-162); it has none if the loop ended at an EOF mark, since nothing is read after it. -/
def loadContent (set : TrxSet) (env : TrxEnv) (data : GoMap String DataCfg) (content : Text) : LoadEnd :=
  let sc := scanFile (fileLines content)
  match loadFile set ⟨env, data, some sc.1⟩ with
  | .ok s => if sc.2 && !sc.1.any eofMark then .exit else .ret (.ok s)
  | o => .ret o

end Finch
