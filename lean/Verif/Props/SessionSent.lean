import Verif.Props.SessionCols
import Verif.Props.ClientAfter
/-!
C115: a client saves only what the statement it sent last returned.
-/
namespace Finch

variable {G : Type}

/-- Spec: a value was saved after its client sent the statement it is of, and before the client did anything
else. -/
def FromSent (hist : List SEv) (s : SaveEv) : Prop :=
  ∃ (q conn : Nat) (what : Sent), q < s.time ∧ s.time ≤ hist.length ∧ hist[q]? = some (.sent s.n s.i conn what) ∧
    ∀ (q' : Nat) e', q < q' → q' < s.time → hist[q']? = some e' → e'.client ≠ s.n

theorem FromSent.append {hist l : List SEv} {s : SaveEv} (h : FromSent hist s) : FromSent (hist ++ l) s := by
  obtain ⟨q, conn, what, h1, h2, h3, h4⟩ := h
  refine ⟨q, conn, what, h1, by simp; omega, by rw [List.getElem?_append_left (by omega)]; exact h3, ?_⟩
  intro q' e' a1 a2 a3
  rw [List.getElem?_append_left (by omega)] at a3
  exact h4 q' e' a1 a2 a3

theorem fromSent_now {hist : List SEv} {n : ClientNo} {i conn : Nat}
    (h : (((hist.filter fun e => e.client == n).map SEv.stmtEv).getLast?) = some (.exec i conn)) (col : Option Nat)
    (val : GoVal) : FromSent hist ⟨hist.length, n, i, col, val⟩ := by
  rw [List.getLast?_map] at h
  obtain ⟨e, h1, h2⟩ := Option.map_eq_some_iff.1 h
  obtain ⟨q, h3, h4⟩ := filter_last _ _ h1
  have hm := (List.mem_filter.1 (List.mem_of_mem_getLast? h1)).2
  have hlt := (List.getElem?_eq_some_iff.1 h3).1
  cases e with
  | gen => cases h2
  | sent n' i' c' what =>
    simp only [SEv.stmtEv, StmtEv.exec.injEq] at h2
    obtain ⟨rfl, rfl⟩ := h2
    have : n' = n := by simpa [SEv.client] using hm
    subst this
    refine ⟨q, _, what, hlt, le_rfl, h3, ?_⟩
    intro q' e' a1 _ a3
    simpa using h4 q' e' a1 a3

theorem recordOf_plain (stat : Option String) (k : EvClass) : (recordOf stat k).filterMap CEv.stmtEv = [] := by
  cases stat <;> rfl

theorem fold_fromSent (o : FmtOther) (ops : GenOps G) (c : Cli) (x : SIn) (l : List CEv) :
    ∀ (tr : List CEv) (s : Sess G),
      (s.hist.filter (fun e => e.client == x.n)).map SEv.stmtEv = tr.filterMap CEv.stmtEv →
      AtEv (BeforeSaved c) (tr ++ l) → (∀ v ∈ s.saves, FromSent s.hist v) →
      ∀ v ∈ (l.foldl (Sess.event o ops c x) s).saves, FromSent (l.foldl (Sess.event o ops c x) s).hist v := by
  induction l with
  | nil => intro tr s _ _ h; exact h
  | cons e l ih =>
    intro tr s h1 h2 h3
    have hsplit : tr ++ e :: l = (tr ++ [e]) ++ l := by simp
    refine ih (tr ++ [e]) _ ?_ (hsplit ▸ h2) ?_
    · rw [List.filterMap_append, ← h1]
      cases e <;> simp [Sess.event, CEv.stmtEv, SEv.client, SEv.stmtEv]
    · have hb := h2 tr.length e (by simp)
      rw [List.take_left] at hb
      cases e <;> simp only [Sess.event] <;> try exact h3
      · intro v hv; exact (h3 v hv).append
      · intro v hv; exact (h3 v hv).append
      · rename_i i
        intro v hv
        rcases List.mem_append.1 hv with hv | hv
        · exact h3 v hv
        · rw [List.mem_singleton] at hv
          subst hv
          obtain ⟨l', n, ps, stat, st, d, -, -, -, -, rfl⟩ := hb
          refine fromSent_now (conn := n) ?_ _ _
          rw [h1]
          split <;> simp [List.filterMap_cons, CEv.stmtEv, recordOf_plain]

/-- **C115 (saved from the statement sent).** Whatever the clients are and however they run: each value a
client saves is one that the statement it sent last returned: between sending the statement and saving the
value it does nothing with data. -/
theorem C115_saved_from_sent (o : FmtOther) (ops : GenOps G) (cs : ClientNo → Cli) (made : GoMap Nat GenId)
    (g : GenStart G) (xs : List SIn) :
    ∀ v ∈ ((Sess.init cs made g).run o ops cs xs).saves, FromSent ((Sess.init cs made g).run o ops cs xs).hist v := by
  induction xs using List.reverseRecOn with
  | nil => intro v hv; simp [Sess.run, Sess.init] at hv
  | append_singleton xs x ih =>
    have hrun : (Sess.init cs made g).run o ops cs (xs ++ [x]) = ((Sess.init cs made g).run o ops cs xs).step o ops cs x := by
      simp [Sess.run]
    rw [hrun]
    have hev := hist_events o ops cs made g xs x.n
    have hcli := Sess.run_cli o ops cs x.n xs (Sess.init cs made g)
    have hcli' := Sess.run_cli o ops cs x.n (xs ++ [x]) (Sess.init cs made g)
    rw [hrun, Sess.step_cli, if_pos rfl] at hcli'
    have haft := afterInv_run (cs x.n) (answersTo x.n xs)
    have haft' := afterInv_run (cs x.n) (answersTo x.n (xs ++ [x]))
    change ((Sess.init cs made g).run o ops cs xs).cli x.n = CState.init.run _ _ at hcli
    change _ = CState.init.run _ _ at hcli'
    rw [← hcli] at haft
    rw [← hcli'] at haft'
    dsimp only at hev
    rw [← hcli] at hev
    generalize (Sess.init cs made g).run o ops cs xs = s at *
    obtain ⟨ev, hev'⟩ := ((s.cli x.n).step_cases (cs x.n) x.ans).trace
    have hh : (s.readRows ops (cs x.n) x).hist = s.hist := by unfold Sess.readRows; split <;> rfl
    have h1 : ∀ v ∈ (s.readRows ops (cs x.n) x).saves, FromSent (s.readRows ops (cs x.n) x).hist v := by
      rw [hh]
      unfold Sess.readRows
      split
      · rename_i i hpc
        intro v hv
        rcases List.mem_append.1 hv with hv | hv
        · exact ih v hv
        · obtain ⟨row, -, hv⟩ := List.mem_flatMap.1 hv
          obtain ⟨p, -, rfl⟩ := List.mem_map.1 hv
          obtain ⟨l, n, ps, stat, st, d, -, -, -, -, htr⟩ := haft.scan i hpc
          refine fromSent_now (conn := n) ?_ _ _
          rw [hev, htr]
          simp [CEv.stmtEv, recordOf_plain]
      · exact ih
    have h2 := fold_fromSent o ops (cs x.n) x
      (((s.cli x.n).step (cs x.n) x.ans).trace.drop (s.cli x.n).trace.length) (s.cli x.n).trace
      (s.readRows ops (cs x.n) x) (by rw [hh]; exact hev)
      (by rw [hev', List.drop_left, ← hev']; exact haft'.saved) h1
    exact h2

/-- It saves twice in the session above, each time after its first statement. -/
example : (colSession "" colLines ((List.range 20).map fun t => colStep (some t) 0)).map
    (fun s => s.saves.map fun v => (v.time, v.n, v.i, v.val)) =
    some [(2, (0, 0, 0), 0, goI64 10), (6, (0, 0, 0), 0, goI64 17)] := by decide +kernel

end Finch
