import Verif.Model.ProtoBody
import Verif.Props.Proto
/-!
C123: a response is delivered whatever its size. False of the code: the context of a request is cancelled before the body of
the response is read.
-/
namespace Finch

/-- The whole claim: a request that the server answers with 200 returns the body of the answer. -/
def Delivered : Prop :=
  ∀ (tries : Int) (data : Bytes) (r : NetResp), Allowed tries 1 → r.code = 200 →
    (request tries data [r.attempt]).2 = some (.ok 200 r.body)

/-- **C123.** A body that came with the headers is returned, from the first attempt that is answered with 200. -/
theorem C123_arrived_partial (tries : Int) (data : Bytes) (r : NetResp) (as : List Attempt) (ht : Allowed tries 1)
    (hc : r.code = 200) (hb : r.body.length ≤ r.arrived) :
    request tries data (r.attempt :: as) = ([data], some (.ok 200 r.body)) := by
  have hm := (moreTries_iff tries 0).mpr ht
  have : readBody r = .status 200 r.body := by simp [readBody, hb, hc]
  simp [request, reqLoop, hm, NetResp.attempt, this]

/-- **C123, negated.** A longer body of which the rest is not read before the transport sees the cancellation makes the whole
request fail, whatever the number of tries and whatever the server would answer to another: there is no other. -/
theorem C123_cut_false (tries : Int) (data : Bytes) (r : NetResp) (as : List Attempt) (ht : Allowed tries 1)
    (hb : r.arrived < r.body.length) (hr : r.restRead = false) :
    request tries data (r.attempt :: as) = ([data], some .readErr) := by
  have hm := (moreTries_iff tries 0).mpr ht
  have : readBody r = .readErr := by simp [readBody, hb, hr]
  simp [request, reqLoop, hm, NetResp.attempt, this]

/-- **C123, negated.** The claim does not hold. -/
theorem C123_delivered_false : ¬ Delivered := by
  intro h
  have h1 := h (-1) [] ⟨200, [1, 2], 1, false⟩ (Or.inl rfl) rfl
  rw [C123_cut_false (-1) [] ⟨200, [1, 2], 1, false⟩ [] (Or.inl rfl) (by decide) rfl] at h1
  simp at h1

/-- **C123, negated.** A remote instance does not get a trx file of which it has not received everything with the headers,
and boots no stage that needs the file. -/
theorem C123_file_false (root : Bool) (answers : Nat → List NetResp) (tmpdir : Text) (i : Nat) (fs : FS) (t : TrxConf)
    (ts : List TrxConf) (r : NetResp) (rs : List NetResp) (hl : fs t.file = none) (ha : answers i = r :: rs)
    (hb : r.arrived < r.body.length) (hr : r.restRead = false) :
    getTrxFiles root (fun i => fetchFile (answers i)) tmpdir i fs (t :: ts) = none := by
  have h1 : fetchFile (answers i) = none := by
    rw [ha]
    unfold fetchFile
    rw [List.map_cons, C123_cut_false 3 [] r _ (Or.inr (by decide)) hb hr]
  simp [getTrxFiles, hl, h1]

/-- **C123.** A file of which everything came with the headers of the first response is what the instance gets. -/
theorem C123_file_partial (r : NetResp) (rs : List NetResp) (hc : r.code = 200) (hb : r.body.length ≤ r.arrived) :
    fetchFile (r :: rs) = some r.body := by
  unfold fetchFile
  rw [List.map_cons, C123_arrived_partial 3 [] r _ (Or.inr (by decide)) hc hb]

/-- A file of six bytes, all here or two of them. -/
example : fetchFile [⟨200, [1, 2, 3, 4, 5, 6], 4096, false⟩] = some [1, 2, 3, 4, 5, 6] := by decide +kernel
example : fetchFile [⟨200, [1, 2, 3, 4, 5, 6], 2, false⟩, ⟨200, [1, 2, 3, 4, 5, 6], 4096, false⟩] = none := by
  decide +kernel
example : fetchFile [⟨500, [1], 4096, false⟩, ⟨200, [1, 2, 3, 4, 5, 6], 4096, false⟩] = some [1, 2, 3, 4, 5, 6] := by
  decide +kernel
example : (2 : Nat) < [1, 2, 3, 4, 5, 6].length ∧ Allowed 3 1 := by unfold Allowed; decide

end Finch
