import Verif.Props.Configured
import Verif.Props.ClientWaits
/-!
C88 from the configuration of a stage to the waits of its clients.
-/
namespace Finch

theorem RateOf.isSome {g : RGraph} {rate : Nat} {l : List (Option Nat)} (h : RateOf g rate l) (hr : 0 < rate)
    {x : Option Nat} (hx : x ∈ l) : x.isSome = true := by
  obtain ⟨i, -, h2⟩ := h hr
  obtain ⟨y, rfl, -⟩ := h2 x hx
  rfl

/-- **C88.** In an accepted stage, a client of client group `g` in an execution group whose first client group is
`g0` executes a statement only right after it waited for queries per second, if `qps` is set for the stage,
`qps-exec-group` for `g0`, or `qps-clients` or `qps` for `g`; and one that begins a trx only right after it waited for
trx per second, if one of the same settings for `tps` is set. Without any of these settings it never waits. -/
theorem C88_configured {env : ValEnv} {c c' : StageConf} (hd : c.disable = false)
    (h : c.validate env = some c') (rest : StageRest) {s : DataScope} {keys : GoMap String TKey} {r : Prepared}
    (hr : prepare (c'.prepEnv rest) s keys = .ok r) {e j i i0 : Nat} {eg : List Nat} {cgs : List ACGroup} {acg : ACGroup}
    {g g0 : CGConf} (he : r.groups[e]? = some eg) (hcgs : r.execGroups[e]? = some cgs) (hacg : cgs[j]? = some acg)
    (hj : eg[j]? = some i) (hg : c.workload[i]? = some g) (h0 : eg[0]? = some i0) (hg0 : c.workload[i0]? = some g0)
    {a : AClient} (ha : a ∈ acg.clients) (tbl : GoMap Nat Nat) (as : List Ans) :
    let tr := (CState.init.run (a.cli tbl) as).trace
    (0 < numberOf c.qps ∨ 0 < numberOf g0.qpsExecGroup ∨ 0 < numberOf g.qpsClients ∨ 0 < numberOf g.qps →
      ∀ p k n ps, tr[p]? = some (.exec k n ps) → ∃ l cnt, tr.take p = l ++ [.waitQps, .gen k cnt]) ∧
    (0 < numberOf c.tps ∨ 0 < numberOf g0.tpsExecGroup ∨ 0 < numberOf g.tpsClients ∨ 0 < numberOf g.tps →
      ∀ p k n ps st, tr[p]? = some (.exec k n ps) → a.statements[k]? = some st → st.begin_ = true →
        ∃ l cnt, tr.take p = l ++ [.waitTps, .gen k cnt] ∨ tr.take p = l ++ [.waitTps, .waitQps, .gen k cnt]) ∧
    (numberOf c.qps = 0 → (∀ x ∈ c.workload, numberOf x.qpsExecGroup = 0) → numberOf g.qpsClients = 0 →
      numberOf g.qps = 0 → .waitQps ∉ tr) ∧
    (numberOf c.tps = 0 → (∀ x ∈ c.workload, numberOf x.tpsExecGroup = 0) → numberOf g.tpsClients = 0 →
      numberOf g.tps = 0 → .waitTps ∉ tr) := by
  intro tr
  obtain ⟨r1, r2, r3⟩ := C116_rates hd h rest hr
  obtain ⟨cgs', q1, q2, q3⟩ := r3 e eg he
  rw [hcgs] at q1
  cases q1
  obtain ⟨q4, q5⟩ := q2 i0 g0 h0 hg0
  obtain ⟨acg', q6, q7, q8, q9⟩ := q3 j i g hj hg
  rw [hacg] at q6
  cases q6
  obtain ⟨p1, p2, p3, p4⟩ := q9 a ha
  have m1 : a ∈ allClients [cgs] := by
    simp only [allClients, List.flatten_cons, List.flatten_nil, List.append_nil, List.mem_flatMap]
    exact ⟨acg, List.mem_of_getElem? hacg, ha⟩
  have m2 : a ∈ allClients r.execGroups := by
    simp only [allClients, List.mem_flatMap, List.mem_flatten]
    exact ⟨acg, ⟨cgs, List.mem_of_getElem? hcgs, List.mem_of_getElem? hacg⟩, ha⟩
  have hw := C88_waits (a.cli tbl) as
  have hn := C88_number_of_waits (a.cli tbl) as
  refine ⟨fun hq p k n ps hp => ?_, fun ht p k n ps st hp hst hb => ?_, fun x1 x2 x3 x4 hm => ?_, fun x1 x2 x3 x4 hm => ?_⟩
  · have hs : (a.cli tbl).qps = true := by
      show a.qps.isSome = true
      rcases hq with hq | hq | hq | hq
      · exact r1.isSome hq (List.mem_map_of_mem m2)
      · exact q4.isSome hq (List.mem_map_of_mem m1)
      · exact q7.isSome hq (List.mem_map_of_mem ha)
      · exact p1.isSome hq (by simp)
    obtain ⟨l, st, cnt, -, h2, -⟩ := hw p k n ps hp
    rw [h2]
    unfold waitsFor
    rw [hs]
    cases (a.cli tbl).tps && st.begin_
    · exact ⟨l, cnt, rfl⟩
    · exact ⟨l ++ [.waitTps], cnt, by simp⟩
  · have hs : (a.cli tbl).tps = true := by
      show a.tps.isSome = true
      rcases ht with hq | hq | hq | hq
      · exact r2.isSome hq (List.mem_map_of_mem m2)
      · exact q5.isSome hq (List.mem_map_of_mem m1)
      · exact q8.isSome hq (List.mem_map_of_mem ha)
      · exact p2.isSome hq (by simp)
    obtain ⟨l, st', cnt, h1, h2, -⟩ := hw p k n ps hp
    have h3 : (a.cli tbl).statements[k]? = some st := hst
    rw [h1] at h3
    cases h3
    rw [h2]
    unfold waitsFor
    rw [hs, hb]
    cases (a.cli tbl).qps
    · exact ⟨l, cnt, .inl rfl⟩
    · exact ⟨l, cnt, .inr rfl⟩
  · have hs : (a.cli tbl).qps = false := by
      show a.qps.isSome = false
      rw [p3 x1 x2 x3 x4]; rfl
    have h1 := hn.1
    rw [hs] at h1
    simp only [Bool.false_eq_true, if_false] at h1
    have := List.countP_eq_zero.1 h1 _ hm
    exact this rfl
  · have hs : (a.cli tbl).tps = false := by
      show a.tps.isSome = false
      rw [p4 x1 x2 x3 x4]; rfl
    have h1 := hn.2.1
    rw [hs] at h1
    simp only [Bool.false_eq_true, if_false] at h1
    have := List.countP_eq_zero.1 h1 _ hm
    exact this rfl

/-- The stage of the examples of C116, with `qps-clients` for the second client group, and `tps` for the third. -/
def exRates : StageConf :=
  { exStageConf with
    workload := [{ group := "a".toList, trx := ["read.sql".toList], clients := "2".toList },
      { group := "a".toList, trx := ["write.sql".toList], qpsClients := "5".toList },
      { group := "b".toList, trx := ["write.sql".toList], tps := "7".toList }] }

/-- The trx files of the examples, the second one with BEGIN and COMMIT. -/
def exTrxRest : StageRest :=
  { exRest with content := fun f =>
      if f = "dir/write.sql".toList then some ["BEGIN".toList, [], "UPDATE t SET c=1 WHERE id=@id".toList, [], "COMMIT".toList]
      else exRest.content f }

/-- Waits for queries and trx per second, and executions, of each client of a prepared stage in 30 steps. -/
def exWaits : List (List (List (Nat × Nat × Nat))) :=
  match exRates.validate exValEnv with
  | none => []
  | some c' => match prepare (c'.prepEnv exTrxRest) DataScope.new GoMap.empty with
    | .ok r => r.execGroups.map fun cgs => cgs.map fun g => g.clients.map fun a =>
        let tr := (CState.init.run (a.cli fun _ => none) (List.replicate 30 okAns)).trace
        (tr.countP CEv.isQps, tr.countP CEv.isTps, tr.countP CEv.isExec)
    | _ => []

/-- The stage is accepted and prepared, and its clients execute statements. -/
example : exWaits = [[[(0, 0, 6), (0, 0, 6)], [(9, 0, 8)]], [[(0, 3, 8)]]] := by decide +kernel

end Finch
