import Verif.Model.Proto
import Mathlib.Tactic.Common
/-!
C55 (requests), C56 (trx files), C57 (switching stages).
-/
namespace Finch

/-! ### C55 -/

/-- Spec: an attempt after which another one is made. -/
def Attempt.retried (a : Attempt) : Prop :=
  a.cancelled = false ∧ (a.res = .doErr ∨ ∃ c b, a.res = .status c b ∧ c ≠ 200 ∧ c ≠ 205)

/-- Spec: number of attempts allowed. -/
def Allowed (tries : Int) (n : Nat) : Prop := tries = -1 ∨ (n : Int) ≤ tries

theorem moreTries_iff (tries : Int) (n : Nat) : moreTries tries n = true ↔ Allowed tries (n + 1) := by
  unfold moreTries Allowed
  simp only [Bool.or_eq_true, beq_iff_eq, decide_eq_true_eq]
  omega

theorem reqLoop_retried {tries : Int} {n : Nat} {buf : Bytes} {a : Attempt} {rest : List Attempt}
    (hm : moreTries tries n = true) (ha : a.retried) :
    reqLoop tries n buf (a :: rest) =
      (buf :: (reqLoop tries (n + 1) (buf.drop a.consumed) rest).1,
        (reqLoop tries (n + 1) (buf.drop a.consumed) rest).2) := by
  obtain ⟨hc, h | ⟨c, b, h, h1, h2⟩⟩ := ha
  · simp [reqLoop, hm, hc, h]
  · simp [reqLoop, hm, hc, h, h1, h2]

/-- An attempt that is not retried ends the call. -/
theorem reqLoop_end {tries : Int} {n : Nat} {buf : Bytes} {a : Attempt} {rest : List Attempt}
    (hm : moreTries tries n = true) (ha : ¬ a.retried) :
    (reqLoop tries n buf (a :: rest)).1 = [buf] ∧
    (reqLoop tries n buf (a :: rest)).2 = some (match a.res with
      | .doErr => .ctxErr
      | .readErr => .readErr
      | .status c b => if c = 200 then .ok c b else if c = 205 then .ok c [] else .ctxErr) := by
  obtain ⟨res, consumed, cancelled⟩ := a
  unfold reqLoop
  rw [if_pos hm]
  cases res with
  | doErr =>
    cases cancelled
    · exact absurd ⟨rfl, Or.inl rfl⟩ ha
    · simp
  | readErr => simp
  | status c b =>
    simp only []
    by_cases h1 : c = 200
    · simp [h1]
    by_cases h2 : c = 205
    · simp [h2]
    cases cancelled
    · exact absurd ⟨rfl, Or.inr ⟨c, b, rfl, h1, h2⟩⟩ ha
    · simp [h1, h2]

theorem reqLoop_stop {tries : Int} {n : Nat} {buf : Bytes} {as : List Attempt}
    (hm : moreTries tries n = false) : reqLoop tries n buf as = ([], some .failed) := by
  cases as <;> simp [reqLoop, hm]

theorem reqLoop_len (tries : Int) : ∀ (as : List Attempt) (n : Nat) (buf : Bytes),
    (reqLoop tries n buf as).1 ≠ [] → Allowed tries (n + (reqLoop tries n buf as).1.length)
  | as, n, buf, h => by
    cases hm : moreTries tries n with
    | false => rw [reqLoop_stop hm] at h; exact absurd rfl h
    | true =>
      have hal := (moreTries_iff tries n).mp hm
      cases as with
      | nil => exact absurd (by simp [reqLoop, hm]) h
      | cons a rest =>
        by_cases ha : a.retried
        · rw [reqLoop_retried hm ha] at h ⊢
          simp only [List.length_cons]
          by_cases hr : (reqLoop tries (n + 1) (buf.drop a.consumed) rest).1 = []
          · rw [hr]; exact hal
          · have := reqLoop_len tries rest (n + 1) _ hr
            rw [show n + ((reqLoop tries (n + 1) (buf.drop a.consumed) rest).1.length + 1) =
              n + 1 + (reqLoop tries (n + 1) (buf.drop a.consumed) rest).1.length by omega]
            exact this
        · rw [(reqLoop_end hm ha).1]; exact hal

/-- **C55.** At most the configured number of attempts are made (−1: no limit), -/
theorem C55_attempts_bounded (tries : Int) (data : Bytes) (as : List Attempt) (ht : tries ≠ -1) :
    ((request tries data as).1.length : Int) ≤ max tries 0 := by
  unfold request
  by_cases h : (reqLoop tries 0 data as).1 = []
  · rw [h]; simp only [List.length_nil]; omega
  · rcases reqLoop_len tries as 0 data h with h | h
    · exact absurd h ht
    · omega

/-- **C55.** and after as many attempts the call has returned: `ErrFailed` if all of them were to be retried. -/
theorem C55_returns (tries : Int) (ht : 0 ≤ tries) : ∀ (as : List Attempt) (data : Bytes),
    tries ≤ as.length → (request tries data as).2 ≠ none := by
  have key : ∀ (as : List Attempt) (n : Nat) (buf : Bytes), tries ≤ n + as.length →
      (reqLoop tries n buf as).2 ≠ none := by
    intro as
    induction as with
    | nil =>
      intro n buf h
      have hm : moreTries tries n = false := by
        cases hm : moreTries tries n with
        | false => rfl
        | true =>
          rcases (moreTries_iff tries n).mp hm with h' | h'
          · omega
          · simp at h; omega
      rw [reqLoop_stop hm]; simp
    | cons a rest ih =>
      intro n buf h
      cases hm : moreTries tries n with
      | false => rw [reqLoop_stop hm]; simp
      | true =>
        by_cases ha : a.retried
        · rw [reqLoop_retried hm ha]
          exact ih (n + 1) _ (by simp only [List.length_cons] at h; push_cast at h ⊢; omega)
        · rw [(reqLoop_end hm ha).2]; simp
  intro as data h
  exact key as 0 data (by simpa using h)

/-- **C55.** Success is reported exactly if some attempt, within the limit and after attempts that
were all retried, was answered with 200 (and then its body) or 205 (without body). -/
theorem C55_success_iff (tries : Int) (data : Bytes) (as : List Attempt) (code : Nat) (body : Bytes) :
    (request tries data as).2 = some (.ok code body) ↔
      ∃ pre a post b, as = pre ++ a :: post ∧ (∀ x ∈ pre, x.retried) ∧ Allowed tries (pre.length + 1) ∧
        a.res = .status code b ∧ ((code = 200 ∧ body = b) ∨ (code = 205 ∧ body = [])) := by
  have key : ∀ (as : List Attempt) (n : Nat) (buf : Bytes),
      (reqLoop tries n buf as).2 = some (.ok code body) ↔
      ∃ pre a post b, as = pre ++ a :: post ∧ (∀ x ∈ pre, x.retried) ∧ Allowed tries (n + pre.length + 1) ∧
        a.res = .status code b ∧ ((code = 200 ∧ body = b) ∨ (code = 205 ∧ body = [])) := by
    intro as
    induction as with
    | nil =>
      intro n buf
      constructor
      · intro h
        cases hm : moreTries tries n <;> simp [reqLoop, hm] at h
      · rintro ⟨pre, a, post, b, h, _⟩; simp at h
    | cons a rest ih =>
      intro n buf
      cases hm : moreTries tries n with
      | false =>
        rw [reqLoop_stop hm]
        constructor
        · intro h; cases h
        · rintro ⟨pre, _, _, _, _, _, hal, _⟩
          have : moreTries tries n = true := (moreTries_iff tries n).mpr (by
            rcases hal with h | h
            · exact Or.inl h
            · right; push_cast at h ⊢; omega)
          rw [hm] at this; cases this
      | true =>
        by_cases ha : a.retried
        · rw [reqLoop_retried hm ha]
          simp only []
          rw [ih]
          constructor
          · rintro ⟨pre, x, post, b, h1, h2, h3, h4⟩
            refine ⟨a :: pre, x, post, b, by rw [h1]; rfl, ?_, ?_, h4⟩
            · intro y hy
              rcases List.mem_cons.mp hy with rfl | hy
              · exact ha
              · exact h2 y hy
            · rw [show n + (a :: pre).length + 1 = n + 1 + pre.length + 1 by simp; omega]; exact h3
          · rintro ⟨pre, x, post, b, h1, h2, h3, h4⟩
            cases pre with
            | nil =>
              simp only [List.nil_append, List.cons.injEq] at h1
              obtain ⟨rfl, rfl⟩ := h1
              obtain ⟨_, h | ⟨c, b', h, h5, h6⟩⟩ := ha
              · rw [h] at h4; cases h4.1
              · rw [h] at h4
                obtain ⟨h7, h8⟩ := h4
                injection h7 with h7 _
                subst h7
                rcases h8 with h8 | h8
                · exact absurd h8.1 h5
                · exact absurd h8.1 h6
            | cons y pre =>
              simp only [List.cons_append, List.cons.injEq] at h1
              obtain ⟨rfl, h1⟩ := h1
              refine ⟨pre, x, post, b, h1, fun z hz => h2 z (List.mem_cons_of_mem _ hz), ?_, h4⟩
              rw [show n + 1 + pre.length + 1 = n + (a :: pre).length + 1 by simp; omega]; exact h3
        · rw [(reqLoop_end hm ha).2]
          constructor
          · intro h
            refine ⟨[], a, rest, ?_⟩
            cases hres : a.res with
            | doErr => rw [hres] at h; cases h
            | readErr => rw [hres] at h; cases h
            | status c b =>
              rw [hres] at h
              simp only [Option.some.injEq] at h
              refine ⟨b, rfl, by simp, (moreTries_iff tries n).mp hm, ?_⟩
              split at h
              · rename_i hc
                injection h with h1 h2
                subst h1; subst h2
                exact ⟨rfl, Or.inl ⟨hc, rfl⟩⟩
              · split at h
                · rename_i hc
                  injection h with h1 h2
                  subst h1; subst h2
                  exact ⟨rfl, Or.inr ⟨hc, rfl⟩⟩
                · cases h
          · rintro ⟨pre, x, post, b, h1, h2, h3, h4, h5⟩
            cases pre with
            | nil =>
              simp only [List.nil_append, List.cons.injEq] at h1
              obtain ⟨rfl, rfl⟩ := h1
              rw [h4]
              rcases h5 with ⟨rfl, rfl⟩ | ⟨rfl, rfl⟩ <;> simp
            | cons y pre =>
              simp only [List.cons_append, List.cons.injEq] at h1
              obtain ⟨rfl, _⟩ := h1
              exact absurd (h2 a List.mem_cons_self) ha
  have := key as 0 data
  simpa [request] using this

/-- What is sent: of the data, what earlier attempts did not take from the buffer. -/
theorem reqLoop_sent (tries : Int) : ∀ (as : List Attempt) (n : Nat) (buf : Bytes) (i : Nat) (b : Bytes),
    (reqLoop tries n buf as).1[i]? = some b →
    b = buf.drop ((as.take i).map (·.consumed)).sum
  | as, n, buf, i, b, h => by
    cases hm : moreTries tries n with
    | false => rw [reqLoop_stop hm] at h; simp at h
    | true =>
      cases as with
      | nil => simp [reqLoop, hm] at h
      | cons a rest =>
        by_cases ha : a.retried
        · rw [reqLoop_retried hm ha] at h
          cases i with
          | zero => simp at h; simp [h]
          | succ i =>
            simp only [List.getElem?_cons_succ] at h
            rw [reqLoop_sent tries rest (n + 1) _ i b h]
            simp [List.drop_drop]
        · rw [(reqLoop_end hm ha).1] at h
          cases i with
          | zero => simp at h; simp [h]
          | succ i => simp at h

/-- **C55.** Every attempt carries the same body if there is none, or if no earlier attempt got so far
as to send some of it. What is missing: retries after the request was sent. -/
theorem C55_same_body_partial (tries : Int) (data : Bytes) (as : List Attempt)
    (h : data = [] ∨ ∀ a ∈ as, a.retried → a.consumed = 0) :
    ∀ b ∈ (request tries data as).1, b = data := by
  have key : ∀ (as : List Attempt) (n : Nat) (buf : Bytes),
      (buf = [] ∨ ∀ a ∈ as, a.retried → a.consumed = 0) → ∀ b ∈ (reqLoop tries n buf as).1, b = buf := by
    intro as
    induction as with
    | nil => intro n buf _ b hb; cases hm : moreTries tries n <;> simp [reqLoop, hm] at hb
    | cons a rest ih =>
      intro n buf h b hb
      cases hm : moreTries tries n with
      | false => rw [reqLoop_stop hm] at hb; cases hb
      | true =>
        by_cases ha : a.retried
        · rw [reqLoop_retried hm ha] at hb
          have hd : buf.drop a.consumed = buf := by
            rcases h with h | h
            · simp [h]
            · rw [h a List.mem_cons_self ha]; rfl
          rcases List.mem_cons.mp hb with rfl | hb
          · rfl
          · rw [hd] at hb
            exact ih (n + 1) buf (h.imp id (fun h x hx => h x (List.mem_cons_of_mem _ hx))) b hb
        · rw [(reqLoop_end hm ha).1] at hb
          exact List.mem_singleton.mp hb
  exact key as 0 data h

/-- **C55 is false.** An attempt that was sent completely but failed (a timeout or any other status) is
followed by an attempt without body, for all data. -/
theorem C55_empty_retry_false (tries : Int) (ht : Allowed tries 2) (data : Bytes) (a a' : Attempt)
    (as : List Attempt) (ha : a.retried) (hc : data.length ≤ a.consumed) :
    ∃ rest, (request tries data (a :: a' :: as)).1 = data :: [] :: rest := by
  have h0 : moreTries tries 0 = true := (moreTries_iff tries 0).mpr (by
    rcases ht with h | h
    · exact Or.inl h
    · right; push_cast at h ⊢; omega)
  have h1 : moreTries tries 1 = true := (moreTries_iff tries 1).mpr ht
  unfold request
  rw [reqLoop_retried h0 ha]
  have hd : data.drop a.consumed = [] := by simp [hc]
  rw [hd]
  by_cases ha' : a'.retried
  · rw [reqLoop_retried h1 ha']; exact ⟨_, rfl⟩
  · exact ⟨[], by simp only []; rw [(reqLoop_end h1 ha').1]⟩

/-- **C55 is false, consequence.** A remote instance that failed to boot tells the server; if the first
attempt times out the second one says that the boot was successful. -/
theorem C55_boot_error_false : ∃ (err : Bytes) (as : List Attempt) (b1 b2 : Bytes),
    (request 3 err as).1 = [b1, b2] ∧ (request 3 err as).2 = some (.ok 200 []) ∧
    bootAckOk b1 = false ∧ bootAckOk b2 = true :=
  ⟨[34, 120, 34, 10], [⟨.doErr, 4, false⟩, ⟨.status 200 [], 0, false⟩], [34, 120, 34, 10], [], by decide⟩

example : Attempt.retried ⟨.status 503 [], 4, false⟩ := ⟨rfl, Or.inr ⟨503, [], rfl, by decide, by decide⟩⟩

example : (request 3 [1, 2] [⟨.doErr, 0, false⟩, ⟨.status 500 [], 2, false⟩, ⟨.status 503 [], 0, false⟩]) =
    ([[1, 2], [1, 2], []], some .failed) := by decide

/-! ### C56 -/

theorem writeFile_new {root : Bool} {fs : FS} {name : Text} {body : Bytes} (h : fs name = none) :
    writeFile root fs name body = some fun f => if f = name then some body else fs f := by
  simp [writeFile, h]

/-- Path of a fetched file. -/
def tmpPath (tmpdir : Text) (t : TrxConf) : Text := tmpdir ++ '/' :: baseName t.file

theorem getTrxFiles_spec (root : Bool) (server : Nat → Option Bytes) (tmpdir : Text) :
    ∀ (ts : List TrxConf) (i : Nat) (fs : FS) (r : List TrxConf) (fs' : FS),
    (∀ t ∈ ts, ∀ t' ∈ ts, t.file ≠ tmpPath tmpdir t') →
    (∀ t ∈ ts, fs t.file = none → fs (tmpPath tmpdir t) = none) →
    ((ts.filter fun t => (fs t.file).isNone).map fun t => baseName t.file).Nodup →
    getTrxFiles root server tmpdir i fs ts = some (r, fs') →
    (∀ f, fs f ≠ none → fs' f = fs f) ∧
    r.length = ts.length ∧
    ∀ (k : Nat) (t : TrxConf), ts[k]? = some t → ∃ t' : TrxConf, r[k]? = some t' ∧ t'.name = t.name ∧ t'.data = t.data ∧
      ((fs t.file ≠ none ∧ t'.file = t.file) ∨
       (fs t.file = none ∧ t'.file = tmpPath tmpdir t ∧ ∃ b, server (i + k) = some b ∧ fs' t'.file = some b)) := by
  intro ts
  induction ts with
  | nil =>
    intro i fs r fs' _ _ _ h
    simp only [getTrxFiles] at h
    cases h
    exact ⟨fun _ _ => rfl, rfl, fun k t h => by simp at h⟩
  | cons t ts ih =>
    intro i fs r fs' hsep hfree hnd h
    simp only [getTrxFiles] at h
    have hsep' : ∀ x ∈ ts, ∀ y ∈ ts, x.file ≠ tmpPath tmpdir y :=
      fun x hx y hy => hsep x (List.mem_cons_of_mem _ hx) y (List.mem_cons_of_mem _ hy)
    cases hloc : fs t.file with
    | some c =>
      rw [hloc] at h
      simp only [Option.isSome_some, if_true] at h
      cases hr : getTrxFiles root server tmpdir (i + 1) fs ts with
      | none => rw [hr] at h; cases h
      | some p =>
        obtain ⟨r1, fs1⟩ := p
        rw [hr] at h
        simp only [Option.map_some, Option.some.injEq, Prod.mk.injEq] at h
        obtain ⟨rfl, rfl⟩ := h
        have hnd' : ((ts.filter fun t => (fs t.file).isNone).map fun t => baseName t.file).Nodup := by
          rw [List.filter_cons, hloc] at hnd
          simpa using hnd
        obtain ⟨h1, h2, h3⟩ := ih (i + 1) fs r1 fs1 hsep'
          (fun x hx => hfree x (List.mem_cons_of_mem _ hx)) hnd' hr
        refine ⟨h1, by simp [h2], ?_⟩
        intro k x hk
        cases k with
        | zero =>
          simp only [List.getElem?_cons_zero, Option.some.injEq] at hk ⊢
          subst hk
          exact ⟨t, rfl, rfl, rfl, Or.inl ⟨by rw [hloc]; simp, rfl⟩⟩
        | succ k =>
          simp only [List.getElem?_cons_succ] at hk ⊢
          obtain ⟨t', h4, h5, h6, h7⟩ := h3 k x hk
          refine ⟨t', h4, h5, h6, ?_⟩
          rw [show i + (k + 1) = i + 1 + k by omega]
          exact h7
    | none =>
      rw [hloc] at h
      simp only [Option.isSome_none, Bool.false_eq_true, if_false] at h
      cases hs : server i with
      | none => rw [hs] at h; cases h
      | some body =>
        rw [hs] at h
        simp only [] at h
        have hf0 := hfree t List.mem_cons_self hloc
        rw [show (tmpdir ++ '/' :: baseName t.file) = tmpPath tmpdir t from rfl, writeFile_new hf0] at h
        simp only [] at h
        generalize hfs1 : (fun f => if f = tmpPath tmpdir t then some body else fs f) = fs1 at h
        have hfs1' : ∀ f, fs1 f = if f = tmpPath tmpdir t then some body else fs f := by
          intro f; rw [← hfs1]
        cases hr : getTrxFiles root server tmpdir (i + 1) fs1 ts with
        | none => rw [hr] at h; cases h
        | some p =>
          obtain ⟨r1, fs2⟩ := p
          rw [hr] at h
          simp only [Option.map_some, Option.some.injEq, Prod.mk.injEq] at h
          obtain ⟨rfl, rfl⟩ := h
          have hsame : ∀ x ∈ ts, fs1 x.file = fs x.file := by
            intro x hx
            rw [hfs1', if_neg (hsep x (List.mem_cons_of_mem _ hx) t List.mem_cons_self)]
          rw [List.filter_cons, hloc] at hnd
          simp only [Option.isNone_none, if_true, List.map_cons, List.nodup_cons] at hnd
          have hne : ∀ x ∈ ts, fs x.file = none → tmpPath tmpdir x ≠ tmpPath tmpdir t := by
            intro x hx hxl heq
            apply hnd.1
            unfold tmpPath at heq
            have := List.append_cancel_left heq
            injection this with _ hb
            rw [← hb]
            exact List.mem_map.mpr ⟨x, List.mem_filter.mpr ⟨hx, by rw [hxl]; rfl⟩, rfl⟩
          have hnd' : ((ts.filter fun t => (fs1 t.file).isNone).map fun t => baseName t.file).Nodup := by
            rw [List.filter_congr (fun x hx => by rw [hsame x hx])]
            exact hnd.2
          obtain ⟨h1, h2, h3⟩ := ih (i + 1) fs1 r1 fs2 hsep' (by
            intro x hx hxl
            rw [hsame x hx] at hxl
            rw [hfs1', if_neg (hne x hx hxl)]
            exact hfree x (List.mem_cons_of_mem _ hx) hxl) hnd' hr
          refine ⟨?_, by simp [h2], ?_⟩
          · intro f hf
            have hfe : fs1 f = fs f := by
              rw [hfs1']
              split
              · rename_i he; rw [he, hf0] at hf; exact absurd rfl hf
              · rfl
            rw [h1 f (by rw [hfe]; exact hf), hfe]
          · intro k x hk
            cases k with
            | zero =>
              simp only [List.getElem?_cons_zero, Option.some.injEq] at hk ⊢
              subst hk
              refine ⟨_, rfl, rfl, rfl, Or.inr ⟨hloc, rfl, body, hs, ?_⟩⟩
              have : fs1 (tmpPath tmpdir t) = some body := by rw [hfs1', if_pos rfl]
              show fs2 (tmpPath tmpdir t) = some body
              rw [h1 _ (by rw [this]; simp), this]
            | succ k =>
              simp only [List.getElem?_cons_succ] at hk ⊢
              obtain ⟨t', h4, h5, h6, h7⟩ := h3 k x hk
              refine ⟨t', h4, h5, h6, ?_⟩
              rw [show i + (k + 1) = i + 1 + k by omega, ← hsame x (List.mem_of_getElem? hk)]
              exact h7

/-- **C56.** After a successful fetch every trx whose file the instance did not have refers to a file
with exactly the content of the file on the server; other local files are unchanged. What is missing: files that
have the same base name, and files that exist on the instance already. -/
theorem C56_content_partial (root : Bool) (files fs fs' : FS) (tmpdir : Text) (ts r : List TrxConf)
    (hsep : ∀ t ∈ ts, ∀ t' ∈ ts, t.file ≠ tmpPath tmpdir t') (hempty : ∀ x, fs (tmpdir ++ '/' :: x) = none)
    (hnd : ((ts.filter fun t => (fs t.file).isNone).map fun t => baseName t.file).Nodup)
    (h : getTrxFiles root (serveFile files ts) tmpdir 0 fs ts = some (r, fs')) :
    r.length = ts.length ∧ (∀ f, fs f ≠ none → fs' f = fs f) ∧
    ∀ (k : Nat) (t : TrxConf), ts[k]? = some t → ∃ t' : TrxConf, r[k]? = some t' ∧ t'.name = t.name ∧ t'.data = t.data ∧
      (fs t.file = none → fs' t'.file = files t.file ∧ fs' t'.file ≠ none) ∧
      (fs t.file ≠ none → t'.file = t.file) := by
  obtain ⟨h1, h2, h3⟩ := getTrxFiles_spec root (serveFile files ts) tmpdir ts 0 fs r fs' hsep
    (fun t _ _ => hempty _) hnd h
  refine ⟨h2, h1, fun k t hk => ?_⟩
  obtain ⟨t', a1, a2, a3, a4⟩ := h3 k t hk
  refine ⟨t', a1, a2, a3, ?_⟩
  rcases a4 with ⟨b1, b2⟩ | ⟨b1, b2, b, b3, b4⟩
  · exact ⟨fun hx => absurd hx b1, fun _ => b2⟩
  · refine ⟨fun _ => ?_, fun hx => absurd b1 hx⟩
    rw [Nat.zero_add] at b3
    unfold serveFile at b3
    rw [hk] at b3
    simp only [] at b3
    rw [b4, b3]
    exact ⟨rfl, by simp⟩

/-- Two trx files with the same base name. -/
def exTwo : List TrxConf := [{ name := "a".toList, file := "a/x.sql".toList }, { name := "b".toList, file := "b/x.sql".toList }]

/-- Their content on the server. -/
def exTwoFiles : FS := fun f =>
  if f = "a/x.sql".toList then some [1, 1, 1, 1] else if f = "b/x.sql".toList then some [2, 2] else none

/-- **C56 is false.** Files with the same base name overwrite one another, and the longer one is not even
truncated: both trx refer to a file whose content is that of neither. -/
theorem C56_same_name_false : ∃ r fs', getTrxFiles true (serveFile exTwoFiles exTwo) "/tmp/f".toList 0
    (fun _ => none) exTwo = some (r, fs') ∧ r.map (·.file) = ["/tmp/f/x.sql".toList, "/tmp/f/x.sql".toList] ∧
    fs' "/tmp/f/x.sql".toList = some [2, 2, 1, 1] := by
  refine ⟨_, _, rfl, ?_, ?_⟩ <;> decide +kernel

/-- Without privileges the fetch fails instead. -/
theorem C56_same_name_error : getTrxFiles false (serveFile exTwoFiles exTwo) "/tmp/f".toList 0
    (fun _ => none) exTwo = none := by rfl

/-- **C56 is false.** A file of that name which is on the instance already is used, whatever its content. -/
theorem C56_local_false (root : Bool) (server : Nat → Option Bytes) (tmpdir : Text) (fs : FS) (t : TrxConf)
    (c : Bytes) (h : fs t.file = some c) : getTrxFiles root server tmpdir 0 fs [t] = some ([t], fs) := by
  simp [getTrxFiles, h]

/-- The hypotheses of `C56_content_partial` can be met. -/
example : (getTrxFiles false (serveFile (fun f => if f = "a/x.sql".toList then some [1] else some [2])
    [{ file := "a/x.sql".toList }, { file := "y.sql".toList }]) "/tmp/f".toList 0 (fun _ => none)
    [{ file := "a/x.sql".toList }, { file := "y.sql".toList }]).isSome ∧
    (((([{ file := "a/x.sql".toList }, { file := "y.sql".toList }] : List TrxConf)).map
      fun t => baseName t.file).Nodup) := by
  decide +kernel

/-! ### C57 -/

/-- **C57 is false.** As long as a client of the old stage has not left, the server waits; the timeout has no
effect. -/
theorem C57_unbounded_false (t : Nat) : ∀ (ns : List Nat), (∀ n ∈ ns, n ≠ 0) → stageWait t ns = none := by
  intro ns
  induction ns generalizing t with
  | nil => intro _; rfl
  | cons n ns ih =>
    intro h
    simp [stageWait, h n List.mem_cons_self, ih (t + 100) (fun x hx => h x (List.mem_cons_of_mem _ hx))]

/-- **C57.** The loop ends in the first round in which no clients are left. What is missing: the bound of
three seconds. -/
theorem C57_ends_partial (t : Nat) (pre : List Nat) (post : List Nat) (h : ∀ n ∈ pre, n ≠ 0) :
    stageWait t (pre ++ 0 :: post) = some (pre.length + 1) := by
  induction pre generalizing t with
  | nil => simp [stageWait]
  | cons n ns ih =>
    simp [stageWait, h n List.mem_cons_self, ih (t + 100) (fun x hx => h x (List.mem_cons_of_mem _ hx))]

/-- Ten seconds and still waiting. -/
example : stageWait 0 (List.replicate 100 1) = none := C57_unbounded_false 0 _ (by simp)

end Finch
