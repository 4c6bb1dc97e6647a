import Verif.Props.ClientErr
import Verif.Props.TrxLoaded
import Verif.Props.AllocScope
/-!
C47: prepared statements and connections of a client.
-/
namespace Finch

/-- Is it the execution of a statement. -/
def CEv.isExec : CEv → Bool
  | .exec .. => true
  | _ => false

theorem noExec_recEv {stat : Option String} {k : EvClass} : ∀ e ∈ recEv stat k, e.isExec = false :=
  fun e h => by obtain ⟨n, _, rfl⟩ := mem_recEv h; rfl

theorem noExec_okEv {st : Stmt} {d : StmtData} {i : Nat} : ∀ e ∈ okEv st d i, e.isExec = false :=
  fun e h => by rcases mem_okEv h with rfl | rfl <;> rfl

theorem noExec_errEv {stat : Option String} {b : Bool} {code : Nat} :
    ∀ e ∈ errEv stat b code, e.isExec = false := fun e h => by
  obtain ⟨n, rfl⟩ := mem_errEv h; rfl

theorem noExec_waitEv {c : Cli} {st : Stmt} : ∀ e ∈ waitEv c st, e.isExec = false :=
  fun e h => by rcases mem_waitEv h with rfl | rfl <;> rfl

/-- A step executes at most one statement, and that first. -/
theorem CStep.exec_or {c : Cli} {s s' : CState} {a : Ans} (h : CStep c s a s') :
    (∃ l, s'.trace = s.trace ++ l ∧ ∀ e ∈ l, e.isExec = false) ∨
    (∃ i st d l, s.pc = .exec i ∧ c.statements[i]? = some st ∧ c.data[i]? = some d ∧
      s'.trace = s.trace ++ .exec i (s.conn.getD 0) (s.ps i) :: l ∧ (∀ e ∈ l, e.isExec = false) ∧
      s'.conn = s.conn ∧ s'.nextConn = s.nextConn ∧ s'.ps = s.ps) := by
  cases h
  case execNoStats i st d hpc hst hd hstat =>
    exact Or.inr ⟨i, st, d, _, hpc, hst, hd, rfl, by simp [CEv.isExec], rfl, rfl, rfl⟩
  case execFail i st d stat code hpc hst hd hstat he =>
    refine Or.inr ⟨i, st, d, _, hpc, hst, hd, rfl, ?_, rfl, rfl, rfl⟩
    intro e he
    rcases List.mem_append.mp he with he | he
    · exact noExec_recEv e he
    · rw [List.mem_singleton.mp he]; rfl
  case execRows i st d stat hpc hst hd hstat hc he hr =>
    exact Or.inr ⟨i, st, d, _, hpc, hst, hd, rfl, noExec_recEv, rfl, rfl, rfl⟩
  case execOk i st d stat hpc hst hd hstat hc he hr =>
    refine Or.inr ⟨i, st, d, _, hpc, hst, hd, rfl, ?_, rfl, rfl, rfl⟩
    intro e he
    rcases List.mem_append.mp he with he | he
    · exact noExec_recEv e he
    · exact noExec_okEv e he
  case stmt =>
    refine Or.inl ⟨_, rfl, fun e he => ?_⟩
    rcases List.mem_append.mp he with he | he
    · exact noExec_waitEv e he
    · rw [List.mem_singleton.mp he]; rfl
  case error => exact Or.inl ⟨_, rfl, noExec_errEv⟩
  all_goals first
    | exact Or.inl ⟨[], (List.append_nil _).symm, fun e he => absurd he List.not_mem_nil⟩
    | (refine Or.inl ⟨_, rfl, ?_⟩; simp [CEv.isExec]; done)

/-- Spec: at every execution in the trace, `Q` holds of what happened before and of the execution. -/
def AtExec (Q : List CEv → Nat → Nat → Option (Nat × Nat) → Prop) (tr : List CEv) : Prop :=
  ∀ (p i n : Nat) (ps : Option (Nat × Nat)), tr[p]? = some (.exec i n ps) → Q (tr.take p) i n ps

theorem AtExec.none {Q : List CEv → Nat → Nat → Option (Nat × Nat) → Prop} {tr l : List CEv}
    (h : AtExec Q tr) (hl : ∀ e ∈ l, e.isExec = false) : AtExec Q (tr ++ l) := by
  intro p i n ps hp
  by_cases hlt : p < tr.length
  · rw [List.getElem?_append_left hlt] at hp
    rw [List.take_append_of_le_length (by omega)]
    exact h p i n ps hp
  · rw [List.getElem?_append_right (by omega)] at hp
    have := hl _ (List.mem_of_getElem? hp)
    cases this

theorem AtExec.one {Q : List CEv → Nat → Nat → Option (Nat × Nat) → Prop} {tr l : List CEv}
    {i n : Nat} {ps : Option (Nat × Nat)} (h : AtExec Q tr) (hq : Q tr i n ps)
    (hl : ∀ e ∈ l, e.isExec = false) : AtExec Q (tr ++ .exec i n ps :: l) := by
  rw [show tr ++ CEv.exec i n ps :: l = (tr ++ [.exec i n ps]) ++ l by simp]
  refine AtExec.none ?_ hl
  intro p j m ps' hp
  by_cases hlt : p < tr.length
  · rw [List.getElem?_append_left hlt] at hp
    rw [List.take_append_of_le_length (by omega)]
    exact h p j m ps' hp
  · rw [List.getElem?_append_right (by omega)] at hp
    have hp0 : p - tr.length = 0 := by
      by_contra hne
      rw [List.getElem?_eq_none (by simp; omega)] at hp
      cases hp
    rw [hp0] at hp
    cases hp
    rw [show p = tr.length by omega, List.take_append_of_le_length (Nat.le_refl _), List.take_length]
    exact hq

/-- An invariant that implies `Q` whenever a statement is about to be executed gives `Q` at every
execution of a run. -/
theorem run_atExec {c : Cli} {P : CState → Prop}
    {Q : List CEv → Nat → Nat → Option (Nat × Nat) → Prop} (h0 : P CState.init)
    (hP : ∀ s a s', CStep c s a s' → P s → P s')
    (hQ : ∀ s i st d, P s → s.pc = .exec i → c.statements[i]? = some st → c.data[i]? = some d →
      Q s.trace i (s.conn.getD 0) (s.ps i)) (as : List Ans) :
    AtExec Q (CState.init.run c as).trace := by
  refine (CState.run_inv (P := fun s => P s ∧ AtExec Q s.trace) ?_ as _
    ⟨h0, fun p i n ps h => by simp [CState.init] at h⟩).2
  intro s a s' h hs
  refine ⟨hP s a s' h hs.1, ?_⟩
  rcases h.exec_or with ⟨l, e1, e2⟩ | ⟨i, st, d, l, h1, h2, h3, e1, e2, -⟩
  · rw [e1]; exact hs.2.none e2
  · rw [e1]; exact hs.2.one (hQ s i st d hs.1 h1 h2 h3) e2

/-! ### The open connection -/

/-- Spec: the connection that is open after these events. -/
def openConn (tr : List CEv) : Option Nat :=
  tr.foldl (fun o e => match e with
    | .connected n => some n
    | .closed _ => none
    | _ => o) none

/-- Does the event change the connection. -/
def CEv.isConn : CEv → Bool
  | .connected _ | .closed _ => true
  | _ => false

theorem openConn_append (tr l : List CEv) (hl : ∀ e ∈ l, e.isConn = false) :
    openConn (tr ++ l) = openConn tr := by
  unfold openConn
  rw [List.foldl_append]
  generalize List.foldl _ none tr = o
  induction l generalizing o with
  | nil => rfl
  | cons e es ih =>
    rw [List.foldl_cons]
    have he := hl e (by simp)
    rw [ih (fun e he => hl e (by simp [he]))]
    cases e <;> first | rfl | cases he

/-- Does a client have a connection here. -/
def hasConn : CPc → Bool
  | .connect (some _) | .rollback .. | .close false | .connected _ | .use _ | .prep .. | .head
  | .stmt _ | .limit _ | .exec _ | .scan _ | .error .. => true
  | _ => false

structure ConnInv (s : CState) : Prop where
  conn : openConn s.trace = s.conn
  has : hasConn s.pc = true → s.conn.isSome = true

theorem ConnInv.step {c : Cli} {s s' : CState} {a : Ans} (h : CStep c s a s') (hs : ConnInv s) :
    ConnInv s' := by
  have hp : ∀ {l : List CEv}, (∀ e ∈ l, e.isConn = false) → openConn (s.trace ++ l) = s.conn := fun hl => by
    rw [openConn_append _ _ hl]; exact hs.conn
  have hrec : ∀ {stat : Option String} {k : EvClass}, ∀ e ∈ recEv stat k,
      e.isConn = false := fun e h => by obtain ⟨n, _, rfl⟩ := mem_recEv h; rfl
  have hs2 := hs.has
  cases h
  case close f n hpc hn =>
    refine ⟨?_, by simp [hasConn]⟩
    unfold openConn
    rw [List.foldl_append]
    rfl
  case connOk =>
    refine ⟨?_, fun _ => rfl⟩
    unfold openConn
    rw [List.foldl_append]
    rfl
  case stmt i st d hpc hst hi hd =>
    refine ⟨hp fun e he => ?_, ?_⟩
    · rcases List.mem_append.mp he with he | he
      · rcases mem_waitEv he with rfl | rfl <;> rfl
      · rw [List.mem_singleton.mp he]; rfl
    · intro _; exact hs2 (by rw [hpc]; rfl)
  case execFail i st d stat code hpc hst hd hstat he =>
    refine ⟨hp fun e he => ?_, fun _ => hs2 (by rw [hpc]; rfl)⟩
    rcases List.mem_cons.mp he with he | he
    · subst he; rfl
    · rcases List.mem_append.mp he with he | he
      · exact hrec e he
      · rw [List.mem_singleton.mp he]; rfl
  case execRows i st d stat hpc hst hd hstat hc he hr =>
    refine ⟨hp fun e he => ?_, fun _ => hs2 (by rw [hpc]; rfl)⟩
    rcases List.mem_cons.mp he with he | he
    · subst he; rfl
    · exact hrec e he
  case execOk i st d stat hpc hst hd hstat hc he hr =>
    refine ⟨hp fun e he => ?_, fun _ => hs2 (by rw [hpc]; rfl)⟩
    rcases List.mem_cons.mp he with he | he
    · subst he; rfl
    · rcases List.mem_append.mp he with he | he
      · exact hrec e he
      · rcases mem_okEv he with rfl | rfl <;> rfl
  case error i code stat hpc hstat =>
    refine ⟨hp fun e he => ?_, fun _ => hs2 (by rw [hpc]; rfl)⟩
    obtain ⟨n, rfl⟩ := mem_errEv he
    rfl
  case connectFirst => exact ⟨hs.conn, by simp [hasConn]⟩
  case closeNone => exact ⟨hs.conn, by simp [hasConn]⟩
  all_goals first
    | exact hs
    | (refine ⟨hs.conn, ?_⟩; simp [hasConn]; done)
    | (refine ⟨hs.conn, fun _ => hs2 ?_⟩; simp only [*]; rfl)
    | (refine ⟨hp ?_, ?_⟩ <;> (simp [hasConn, CEv.isConn]; done))
    | (refine ⟨hp ?_, fun _ => hs2 ?_⟩
       · simp [CEv.isConn]; done
       · simp only [*]; rfl)

/-- **C47.** Every statement is executed on the connection that is open then. -/
theorem C47_executes_on_open_connection (c : Cli) (as : List Ans) :
    AtExec (fun pre _ n _ => openConn pre = some n) (CState.init.run c as).trace := by
  refine run_atExec (P := ConnInv) ⟨rfl, by simp [CState.init, hasConn]⟩
    (fun s a s' h hs => hs.step h) ?_ as
  intro s i st d hs hpc _ _
  have := hs.has (by rw [hpc]; rfl)
  rw [hs.conn]
  cases hc : s.conn with
  | none => rw [hc] at this; cases this
  | some n => rfl

/-! ### Prepared statements -/

/-- How many statements are prepared, if they have to be. -/
def preparedTo (c : Cli) : CPc → Nat
  | .connect none | .close true | .connLoop true | .connected true | .use true => 0
  | .prep true k => k
  | .stopped _ => 0
  | _ => c.statements.length

/-- The number of connections opened while the client connects for the first time. -/
def firstConns : CPc → Option Nat
  | .connect none | .close true | .connLoop true => some 0
  | .connected true | .use true | .prep true _ => some 1
  | _ => none

structure PsInv (c : Cli) (s : CState) : Prop where
  entry : ∀ (i m k : Nat), s.ps i = some (m, k) → m = 0 ∧ .prepared k m ∈ s.trace ∧
    ∃ st, c.statements[k]? = some st ∧ st.prepare = true ∧
      (i = k ∨ (k < i ∧ i < k + st.prepareMulti))
  all : ∀ i, i < preparedTo c s.pc → ∀ st, c.statements[i]? = some st → st.prepare = true →
    (s.ps i).isSome = true
  first : ∀ n, firstConns s.pc = some n → s.nextConn = n ∧ (n = 1 → s.conn = some 0)

theorem PsInv.step {c : Cli} {s s' : CState} {a : Ans} (h : CStep c s a s') (hs : PsInv c s) :
    PsInv c s' := by
  have he : ∀ {l : List CEv}, ∀ (i m k : Nat), s.ps i = some (m, k) → m = 0 ∧
      .prepared k m ∈ s.trace ++ l ∧ ∃ st, c.statements[k]? = some st ∧ st.prepare = true ∧
      (i = k ∨ (k < i ∧ i < k + st.prepareMulti)) := by
    intro l i m k hp
    obtain ⟨h1, h2, h3⟩ := hs.entry i m k hp
    exact ⟨h1, List.mem_append_left _ h2, h3⟩
  have hall := hs.all
  have hfirst := hs.first
  cases h
  case connectFirst hpc hc =>
    exact ⟨hs.entry, by simp [preparedTo], by simpa [hpc, firstConns] using hfirst⟩
  case close f n hpc hn =>
    cases f with
    | true =>
      obtain ⟨h1, h2⟩ := hfirst 0 (by rw [hpc]; rfl)
      exact ⟨he, by simp [preparedTo], fun n hn => by cases hn; exact ⟨h1, by simp⟩⟩
    | false => exact ⟨he, by simpa [hpc, preparedTo] using hall, by simp [firstConns]⟩
  case closeNone f hpc hn =>
    cases f with
    | true => exact ⟨hs.entry, by simp [preparedTo], by simpa [hpc, firstConns] using hfirst⟩
    | false => exact ⟨hs.entry, by simpa [hpc, preparedTo] using hall, by simp [firstConns]⟩
  case connOk f hpc hc ho =>
    cases f with
    | true =>
      obtain ⟨h1, h2⟩ := hfirst 0 (by rw [hpc]; rfl)
      refine ⟨he, by simp [preparedTo], fun n hn => ?_⟩
      cases hn
      dsimp only
      rw [h1]
      exact ⟨rfl, fun _ => rfl⟩
    | false => exact ⟨he, by simpa [hpc, preparedTo] using hall, by simp [firstConns]⟩
  case noDb f hpc hc hdb =>
    cases f with
    | true => exact ⟨hs.entry, by simp [preparedTo], by simpa [hpc, firstConns] using hfirst⟩
    | false => exact ⟨hs.entry, by simpa [hpc, preparedTo] using hall, by simp [firstConns]⟩
  case toUse f hpc hc hdb =>
    cases f with
    | true => exact ⟨hs.entry, by simp [preparedTo], by simpa [hpc, firstConns] using hfirst⟩
    | false => exact ⟨hs.entry, by simpa [hpc, preparedTo] using hall, by simp [firstConns]⟩
  case useOk f hpc hc he' =>
    cases f with
    | true => exact ⟨he, by simp [preparedTo], by simpa [hpc, firstConns] using hfirst⟩
    | false => exact ⟨he, by simpa [hpc, preparedTo] using hall, by simp [firstConns]⟩
  case prepEndFirst k hpc hst =>
    refine ⟨hs.entry, ?_, by simp [firstConns]⟩
    intro i hi st hi' hp
    refine hall i ?_ st hi' hp
    have hik := (List.getElem?_eq_some_iff.mp hi').1
    have hkl := List.getElem?_eq_none_iff.mp hst
    rw [hpc]
    show i < k
    omega
  case prepEnd k hpc hst =>
    exact ⟨hs.entry, by simpa [hpc, preparedTo] using hall, by simp [firstConns]⟩
  case prepSkip f k st hpc hst hp =>
    cases f with
    | true =>
      refine ⟨hs.entry, ?_, by simpa [hpc, firstConns] using hfirst⟩
      intro i hi st' hi' hp'
      have hi : i < k + 1 := hi
      rcases Nat.lt_succ_iff_lt_or_eq.mp hi with h | h
      · exact hall i (by rw [hpc]; exact h) st' hi' hp'
      · subst h
        rw [hst] at hi'; cases hi'
        rcases hp with hp | hp
        · rw [hp] at hp'; cases hp'
        · exact hp
    | false => exact ⟨hs.entry, by simpa [hpc, preparedTo] using hall, by simp [firstConns]⟩
  case prepPanic f k st hpc hst hp hps he' hlen =>
    cases f with
    | false =>
      have := hall k (by rw [hpc]; exact (List.getElem?_eq_some_iff.mp hst).1) st hst hp
      rw [hps] at this; cases this
    | true =>
      obtain ⟨-, h2⟩ := hfirst 1 (by rw [hpc]; rfl)
      refine ⟨?_, by simp [preparedTo], by simp [firstConns]⟩
      intro i m k' hi
      simp only [copyPs] at hi
      split at hi
      · rename_i hik
        cases hi
        rw [h2 rfl]
        refine ⟨rfl, List.mem_append_right _ (by simp), st, hst, hp, ?_⟩
        rcases hik with h | h
        · exact Or.inl h
        · exact Or.inr ⟨h.1, by omega⟩
      · exact he i m k' hi
  case prepOk f k st hpc hst hp hps he' hlen =>
    cases f with
    | false =>
      have := hall k (by rw [hpc]; exact (List.getElem?_eq_some_iff.mp hst).1) st hst hp
      rw [hps] at this; cases this
    | true =>
      obtain ⟨h1, h2⟩ := hfirst 1 (by rw [hpc]; rfl)
      refine ⟨?_, ?_, ?_⟩
      · intro i m k' hi
        simp only [copyPs] at hi
        split at hi
        · rename_i hik
          cases hi
          rw [h2 rfl]
          exact ⟨rfl, List.mem_append_right _ (by simp), st, hst, hp, hik⟩
        · exact he i m k' hi
      · intro i hi st' hi' hp'
        have hi : i < k + 1 := hi
        show (copyPs s.ps k st.prepareMulti (s.conn.getD 0, k) i).isSome = true
        unfold copyPs
        split
        · rfl
        · rename_i hik
          refine hall i ?_ st' hi' hp'
          rw [hpc]
          show i < k
          omega
      · intro n hn; cases hn; exact ⟨h1, h2⟩
  case connFail => exact hs
  case stopped => exact hs
  all_goals first
    | (refine ⟨hs.entry, ?_, ?_⟩ <;> (simp [preparedTo, firstConns]; done))
    | (refine ⟨he, ?_, ?_⟩ <;> (simp [preparedTo, firstConns]; done))
    | (refine ⟨hs.entry, ?_, ?_⟩
       · simp only [*, preparedTo] at hall; exact hall
       · simp [firstConns]; done)
    | (refine ⟨he, ?_, ?_⟩
       · simp only [*, preparedTo] at hall; exact hall
       · simp [firstConns]; done)
    | (refine ⟨he, ?_, ?_⟩
       · simp only [*, preparedTo] at hall
         dsimp only
         split
         · exact hall
         · exact hall
       · dsimp only
         split
         · simp [firstConns]
         · simp [firstConns])

theorem psInv_init (c : Cli) : PsInv c CState.init :=
  ⟨by simp [CState.init], by simp [CState.init, preparedTo], by
    intro n hn; cases hn; exact ⟨rfl, by simp⟩⟩

/-- **C47, same query text.** If the copies that share a prepared statement have the same query (they
do in loaded trx, see `C47_loaded_client`), then a prepared statement is used exactly for the statements
that say so, and it was prepared before, from the same query text. -/
theorem C47_same_query (c : Cli) (hm : MultiOk c.statements) (as : List Ans) :
    AtExec (fun pre i _ ps => ∃ st, c.statements[i]? = some st ∧
      match ps with
      | none => st.prepare = false
      | some (m, k) => st.prepare = true ∧ .prepared k m ∈ pre ∧
          ∃ st', c.statements[k]? = some st' ∧ st'.query = st.query)
      (CState.init.run c as).trace := by
  refine run_atExec (P := PsInv c) (psInv_init c) (fun s a s' h hs => hs.step h) ?_ as
  intro s i st d hs hpc hst _
  refine ⟨st, hst, ?_⟩
  cases hp : s.ps i with
  | none =>
    dsimp only
    cases hpr : st.prepare with
    | false => rfl
    | true =>
      have := hs.all i (by rw [hpc]; exact (List.getElem?_eq_some_iff.mp hst).1) st hst hpr
      rw [hp] at this; cases this
  | some mk =>
    obtain ⟨m, k⟩ := mk
    obtain ⟨-, h2, st', h3, h4, h5⟩ := hs.entry i m k hp
    dsimp only
    rcases h5 with rfl | ⟨h5, h6⟩
    · rw [hst] at h3; cases h3
      exact ⟨h4, h2, st, hst, rfl⟩
    · obtain ⟨st2, e1, e2, e3⟩ := hm k st' h3 (i - k) (by omega)
      rw [show k + (i - k) = i by omega, hst] at e1
      cases e1
      exact ⟨e3.trans h4, h2, st', h3, e2.symm⟩

/-- **C47, connection.** Until the client reconnects, a prepared statement is executed on the
connection on which it was prepared. What is missing: after a reconnect it is false, see
`C47_stale_after_reconnect` and `C47_reconnect_false`. -/
theorem C47_prepared_on_current_connection_partial (c : Cli) (as : List Ans)
    (h : ((CState.init.run c as).trace.filterMap CEv.opens).length ≤ 1) :
    AtExec (fun _ _ n ps => ∀ m k, ps = some (m, k) → m = n) (CState.init.run c as).trace := by
  have h1 := run_atExec (Q := fun _ _ _ ps => ∀ m k, ps = some (m, k) → m = 0) (psInv_init c)
    (fun s a s' h hs => hs.step h)
    (fun s i st d hs _ _ _ m k hp => (hs.entry i m k hp).1) as
  have h2 := C47_executes_on_open_connection c as
  have h3 := (C45_connections_distinct c as).1
  intro p i n ps hp m k hps
  rw [h1 p i n ps hp m k hps]
  have h4 := h2 p i n ps hp
  have h5 : n ∈ (CState.init.run c as).trace.filterMap CEv.opens := by
    have key : ∀ (tr : List CEv) (o : Option Nat) (n : Nat),
        tr.foldl (fun o e => match e with
          | .connected n => some n
          | .closed _ => none
          | _ => o) o = some n → o = some n ∨ CEv.connected n ∈ tr := by
      intro tr
      induction tr with
      | nil => intro o n h; exact Or.inl h
      | cons e es ih =>
        intro o n h
        rw [List.foldl_cons] at h
        rcases ih _ n h with h | h
        · cases e
          case connected x => cases h; exact Or.inr (by simp)
          case closed x => cases h
          all_goals exact Or.inl h
        · exact Or.inr (by simp [h])
    rcases key _ none n h4 with h | h
    · cases h
    · refine List.mem_filterMap.mpr ⟨_, List.mem_of_mem_take h, rfl⟩
  rw [h3] at h5 h
  rw [List.length_range] at h
  have := List.mem_range.mp h5
  omega

/-- **C47 after a reconnect.** Whatever happens, the client only ever executes prepared statements
that were prepared on its first connection, number 0. -/
theorem C47_stale_after_reconnect (c : Cli) (as : List Ans) :
    AtExec (fun _ _ _ ps => ∀ m k, ps = some (m, k) → m = 0) (CState.init.run c as).trace :=
  run_atExec (psInv_init c) (fun s a s' h hs => hs.step h)
    (fun s i st d hs _ _ _ m k hp => (hs.entry i m k hp).1) as

/-- **C47 is false after a reconnect.** An unknown error (2013, lost connection) in the prepared second
statement; in the next iteration it is executed with the statement prepared on connection 0, which is
closed, while the open connection is 1. -/
theorem C47_reconnect_false :
    ∃ (c : Cli) (as : List Ans), c.tbl = mysqlErrorHandling ∧
      CEv.closed 0 ∈ (CState.init.run c as).trace ∧
      CEv.exec 1 1 (some (0, 1)) ∈ (CState.init.run c as).trace := by
  refine ⟨exClient true, List.replicate 12 okAns ++ [failAns 2013] ++ List.replicate 14 okAns, rfl,
    ?_, ?_⟩
  · decide +kernel
  · decide +kernel

theorem MultiOk.flatMap {f : String → List Stmt} (l : List String) (h : ∀ n ∈ l, MultiOk (f n)) :
    MultiOk (l.flatMap f) := by
  induction l with
  | nil => exact MultiOk.of_zero (by simp)
  | cons x xs ih =>
    rw [List.flatMap_cons]
    exact (h x (by simp)).append (ih fun n hn => h n (by simp [hn]))

/-- **C47.** The condition of `C47_same_query` holds for every client that is allocated from a loaded
trx set. -/
theorem C47_loaded_client {env : WEnv} {w : List CGCfg} {q t : Nat} {s : DataScope}
    {groups : List (List Nat)} {st : WState} {res : List (List ACGroup)} {tfs : List TrxFile}
    {set : TrxSet} {keys : GoMap String TKey} (hl : loadTrx ⟨[], GoMap.empty, GoMap.empty, keys⟩ tfs = .ok set)
    (hs : env.stmts = set.statements) (hne : NoEmptyTrx env w)
    (h : allocClients env w q t s groups = .ok (st, res)) {e j c : Nat} {a : AClient}
    (ha : ClientAt res e j c a) (tbl : Nat → Option Nat) : MultiOk (a.cli tbl).statements := by
  obtain ⟨cg, -, -, hok⟩ := allocClients_at hne h ha
  show MultiOk a.statements
  rw [hok.statements]
  refine MultiOk.flatMap _ (fun n _ => ?_)
  cases hn : env.stmts n with
  | none => exact MultiOk.of_zero (by simp)
  | some ss => rw [hs] at hn; exact loaded_multi hl n ss hn

/-- The hypotheses are met: two copies of a prepared statement, one connection. -/
example :
    let c : Cli := { exClient true with
      statements := [exStmt "BEGIN" false false false true false,
        { exStmt "UPDATE t SET c=1" false true false false true with prepareMulti := 2 },
        exStmt "UPDATE t SET c=1" false true false false true] }
    let s := CState.init.run c (List.replicate 17 okAns)
    CEv.exec 2 0 (some (0, 1)) ∈ s.trace ∧ (s.trace.filterMap CEv.opens).length = 1 := by
  decide +kernel

end Finch
