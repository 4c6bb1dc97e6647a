import Verif.Model.Progress
import Mathlib.Tactic.Linarith
import Mathlib.Tactic.Positivity
import Mathlib.Tactic.FieldSimp
import Mathlib.Tactic.Ring
/-!
C134: data limits report their progress.
-/
namespace Finch

/-- Spec: progress lines about `max` after one with percentage `p` at time `t` when `n` was done: each is more than `r`
percent further than the one before, tells how much is done and how much of the maximum that is, and what was written
since the line before and in what time. -/
def ProgLines (max : Int) (r : Nat) : (p : ℚ) → (t n : Int) → List ProgLine → Prop
  | _, _, _, [] => True
  | p, t, n, l :: ls =>
    l.max = max ∧ p + r < l.pct ∧ l.pct * max = 100 * l.done ∧ l.wrote = l.done - n ∧ l.took = l.time - t ∧
      ProgLines max r l.pct l.time l.done ls

/-- Spec: the percentage of the last line, or `p` if there is none. -/
def lastPct (p : ℚ) (ls : List ProgLine) : ℚ := (ls.getLast?.map ProgLine.pct).getD p

theorem tell_spec {g : Prog} (hmax : 0 < g.max) {t : Int} (ht : g.t = some t) (now n left : Int) :
    (∃ l, g.tell now n left =
        ({ g with p := l.pct, t := some l.time, last := l.done }, some l) ∧
        l.max = g.max ∧ g.p + g.r < l.pct ∧ l.pct * g.max = 100 * l.done ∧ l.wrote = l.done - g.last ∧
        l.took = l.time - t ∧ l.done = n ∧ l.time = now ∧ l.eta = progEta left l.wrote l.took) ∨
    (g.tell now n left = (g, none) ∧ (n : ℚ) * 100 ≤ (g.p + g.r) * g.max) := by
  have hm : (0 : ℚ) < g.max := by exact_mod_cast hmax
  unfold Prog.tell
  dsimp only
  rw [ht]
  by_cases h : (n : ℚ) / g.max * 100 - g.p > g.r
  · rw [if_pos h]
    refine Or.inl ⟨⟨now, n, g.max, n / g.max * 100, now - t, n - g.last, progEta left (n - g.last) (now - t)⟩, rfl, ?_⟩
    refine ⟨rfl, ?_, ?_, rfl, rfl, rfl, rfl, rfl⟩
    · dsimp only; linarith
    · dsimp only; field_simp
  · rw [if_neg h]
    refine Or.inr ⟨rfl, ?_⟩
    have h' : (n : ℚ) / g.max * 100 ≤ g.p + g.r := by push Not at h; linarith
    have := mul_le_mul_of_nonneg_right h' hm.le
    have e : (n : ℚ) / g.max * 100 * g.max = n * 100 := by field_simp
    linarith

theorem lastPct_cons (p : ℚ) (l : ProgLine) (ls : List ProgLine) : lastPct p (l :: ls) = lastPct l.pct ls := by
  cases ls with
  | nil => rfl
  | cons a as => simp [lastPct, List.getLast?_eq_some_getLast]

/-- **C134**: the progress of a row limit. Whatever numbers of rows are written at whatever times, the lines are right
and 5 percent apart. What was written after the last line is at most 5 percent. -/
theorem C134_rows (lm : RowsLog) (hmax : 0 < lm.rows.max) (hm : lm.prog.max = lm.rows.max) {t : Int}
    (ht : lm.prog.t = some t) (ops : List (Int × Int)) (hne : ops ≠ []) :
    ProgLines lm.rows.max lm.prog.r lm.prog.p t lm.prog.last (lm.run ops).2 ∧
      ((lm.run ops).1.rows.n : ℚ) * 100 ≤ (lastPct lm.prog.p (lm.run ops).2 + lm.prog.r) * lm.rows.max := by
  induction ops generalizing lm t with
  | nil => exact absurd rfl hne
  | cons o rest ih =>
    obtain ⟨now, k⟩ := o
    have hm' : 0 < lm.prog.max := by rw [hm]; exact hmax
    have hrm : (lm.rows.affected k).max = lm.rows.max := rfl
    rcases tell_spec hm' ht now (lm.rows.affected k).n (i64 ((lm.rows.affected k).max - (lm.rows.affected k).n)) with
      ⟨l, h1, h2, h3, h4, h5, h6, h7, -, -⟩ | ⟨h1, h2⟩
    · have hrun : lm.run ((now, k) :: rest) =
          (((⟨lm.rows.affected k, { lm.prog with p := l.pct, t := some l.time, last := l.done }⟩ : RowsLog).run rest).1,
            l :: ((⟨lm.rows.affected k, { lm.prog with p := l.pct, t := some l.time, last := l.done }⟩ : RowsLog).run
              rest).2) := by
        simp [RowsLog.run, RowsLog.affected, h1]
      rw [hrun]
      dsimp only
      rw [lastPct_cons]
      cases rest with
      | nil =>
        refine ⟨⟨h2.trans hm, h3, by rw [← hm]; exact h4, h5, h6, trivial⟩, ?_⟩
        simp only [RowsLog.run, lastPct, List.getLast?_nil, Option.map_none, Option.getD_none]
        rw [← h7, ← hm]
        have hr : (0 : ℚ) ≤ lm.prog.r := by positivity
        have hm0 : (0 : ℚ) < lm.prog.max := by exact_mod_cast hm'
        have := mul_nonneg hr hm0.le
        linarith
      | cons o' rest' =>
        obtain ⟨i1, i2⟩ := ih ⟨lm.rows.affected k, { lm.prog with p := l.pct, t := some l.time, last := l.done }⟩
          hmax hm rfl (by simp)
        exact ⟨⟨h2.trans hm, h3, by rw [← hm]; exact h4, h5, h6, i1⟩, i2⟩
    · have hrun : lm.run ((now, k) :: rest) =
          (((⟨lm.rows.affected k, lm.prog⟩ : RowsLog).run rest).1,
            ((⟨lm.rows.affected k, lm.prog⟩ : RowsLog).run rest).2) := by
        simp [RowsLog.run, RowsLog.affected, h1]
      rw [hrun]
      cases rest with
      | nil =>
        refine ⟨trivial, ?_⟩
        simp only [RowsLog.run, lastPct, List.getLast?_nil, Option.map_none, Option.getD_none]
        rw [← hm]; exact h2
      | cons o' rest' => exact ih ⟨lm.rows.affected k, lm.prog⟩ hmax hm ht (by simp)

/-- **C134**: the same for a size limit, and whatever sizes are found. -/
theorem C134_size (g : Prog) (hmax : 0 < g.max) {t : Int} (ht : g.t = some t) (ops : List (Int × Nat)) (now : Int)
    (bytes : Nat) :
    ProgLines g.max g.r g.p t g.last (g.sizes (ops ++ [(now, bytes)])).2 ∧
      (bytes : ℚ) * 100 ≤ (lastPct g.p (g.sizes (ops ++ [(now, bytes)])).2 + g.r) * g.max := by
  have hm0 : (0 : ℚ) < g.max := by exact_mod_cast hmax
  induction ops generalizing g t with
  | nil =>
    rcases tell_spec hmax ht now bytes ((g.max - bytes) % 18446744073709551616) with
      ⟨l, h1, h2, h3, h4, h5, h6, h7, -, -⟩ | ⟨h1, h2⟩
    · have hrun : (g.sizes [(now, bytes)]).2 = [l] := by simp [Prog.sizes, Prog.size, h1]
      rw [List.nil_append, hrun]
      refine ⟨⟨h2, h3, h4, h5, h6, trivial⟩, ?_⟩
      simp only [lastPct, List.getLast?_singleton, Option.map_some, Option.getD_some]
      have hr : (0 : ℚ) ≤ g.r := by positivity
      have := mul_nonneg hr hm0.le
      rw [h7] at h4
      push_cast at h4
      linarith
    · have hrun : (g.sizes [(now, bytes)]).2 = [] := by simp [Prog.sizes, Prog.size, h1]
      rw [List.nil_append, hrun]
      refine ⟨trivial, ?_⟩
      simp only [lastPct, List.getLast?_nil, Option.map_none, Option.getD_none]
      push_cast at h2
      exact h2
  | cons o rest ih =>
    obtain ⟨now', b⟩ := o
    rcases tell_spec hmax ht now' b ((g.max - b) % 18446744073709551616) with
      ⟨l, h1, h2, h3, h4, h5, h6, h7, -, -⟩ | ⟨h1, h2⟩
    · have hrun : (g.sizes ((now', b) :: rest ++ [(now, bytes)])).2 =
          l :: (({ g with p := l.pct, t := some l.time, last := l.done } : Prog).sizes (rest ++ [(now, bytes)])).2 := by
        simp [Prog.sizes, Prog.size, h1]
      rw [hrun, lastPct_cons]
      obtain ⟨i1, i2⟩ := ih { g with p := l.pct, t := some l.time, last := l.done } hmax rfl hm0
      exact ⟨⟨h2, h3, h4, h5, h6, i1⟩, i2⟩
    · have hrun : (g.sizes ((now', b) :: rest ++ [(now, bytes)])).2 = (g.sizes (rest ++ [(now, bytes)])).2 := by
        simp [Prog.sizes, Prog.size, h1]
      rw [hrun]
      exact ih g hmax ht hm0

theorem lastPct_ge {max : Int} {r : Nat} : ∀ (ls : List ProgLine) (p : ℚ) (t n : Int), ProgLines max r p t n ls →
    p + r * ls.length ≤ lastPct p ls ∧ (ls ≠ [] → p + r * ls.length < lastPct p ls) := by
  intro ls
  induction ls with
  | nil => intro p t n _; simp [lastPct]
  | cons l ls ih =>
    intro p t n h
    obtain ⟨-, h2, -, -, -, h3⟩ := h
    obtain ⟨h4, -⟩ := ih _ _ _ h3
    rw [lastPct_cons]
    have : p + (r : ℚ) * ((l :: ls).length : ℕ) < lastPct l.pct ls := by
      push_cast [List.length_cons]
      linarith
    exact ⟨this.le, fun _ => this⟩

/-- **C134**: there are not many lines: with the maximum written less than 100 / r of them, and so on. -/
theorem C134_few {max : Int} {r : Nat} {t n : Int} {ls : List ProgLine} (h : ProgLines max r 0 t n ls)
    {l : ProgLine} (hl : ls.getLast? = some l) : (r * ls.length : ℚ) < l.pct := by
  have hne : ls ≠ [] := by rintro rfl; simp at hl
  have := (lastPct_ge ls 0 t n h).2 hne
  simpa [lastPct, hl] using this

/-- **C134**: what the lines say was written adds up: `n` and all of it is what is done at the last line. The times add
up too. -/
theorem C134_sums {max : Int} {r : Nat} : ∀ {p : ℚ} {t n : Int} {ls : List ProgLine}, ProgLines max r p t n ls →
    ∀ {l : ProgLine}, ls.getLast? = some l →
    n + (ls.map ProgLine.wrote).sum = l.done ∧ t + (ls.map ProgLine.took).sum = l.time := by
  intro p t n ls
  induction ls generalizing p t n with
  | nil => intro _ l hl; simp at hl
  | cons a ls ih =>
    intro h l hl
    obtain ⟨-, -, -, h4, h5, h6⟩ := h
    cases ls with
    | nil =>
      simp only [List.getLast?_singleton, Option.some.injEq] at hl
      subst hl
      simp only [List.map_cons, List.map_nil, List.sum_cons, List.sum_nil]
      omega
    | cons b ls =>
      rw [List.getLast?_cons_cons] at hl
      obtain ⟨i1, i2⟩ := ih h6 hl
      simp only [List.map_cons, List.sum_cons] at i1 i2 ⊢
      omega

/-- **C134**: the time that is left: at the rate of this line, what is left takes at least the seconds that the line says
and less than one more. If the maximum is not exceeded, something was written and it takes less than 292 years. -/
theorem C134_eta_partial {left wrote took : Int} (hl : 0 ≤ left) (hw : 0 < wrote) (ht : 0 < took)
    (hbig : left * took < 9223372036 * (wrote * 1000000000)) :
    ∃ s : Int, progEta left wrote took = some (s * 1000000000) ∧
      s * (wrote * 1000000000) ≤ left * took ∧ left * took < (s + 1) * (wrote * 1000000000) := by
  have hpos : 0 < wrote * 1000000000 := by omega
  have hlt : 0 ≤ left * took := Int.mul_nonneg hl ht.le
  have e : (left * took).tdiv (wrote * 1000000000) = left * took / (wrote * 1000000000) :=
    Int.tdiv_eq_ediv_of_nonneg hlt
  have h1 := Int.ediv_mul_le (left * took) (Int.ne_of_gt hpos)
  have h2 := Int.lt_ediv_add_one_mul_self (left * took) hpos
  have h0 : 0 ≤ left * took / (wrote * 1000000000) := Int.ediv_nonneg hlt hpos.le
  have h3 : left * took / (wrote * 1000000000) < 9223372036 := Int.ediv_lt_of_lt_mul hpos hbig
  refine ⟨left * took / (wrote * 1000000000), ?_, h1, h2⟩
  unfold progEta
  rw [if_neg (by omega), if_neg (by omega)]
  dsimp only
  rw [e]
  generalize left * took / (wrote * 1000000000) = s at h0 h3
  have i1 : i64 s = s := Int.bmod_eq_of_le (by omega) (by omega)
  have i2 : i64 (s * 1000000000) = s * 1000000000 := Int.bmod_eq_of_le (by omega) (by omega)
  rw [if_pos i1, i2]

/-- Spec: each line tells the time that is left as `progEta` computes it from what the line says. -/
def EtasOf (left : ProgLine → Int) (ls : List ProgLine) : Prop := ∀ l ∈ ls, l.eta = progEta (left l) l.wrote l.took

theorem tell_eta (g : Prog) (now n left : Int) {l : ProgLine} (h : (g.tell now n left).2 = some l) :
    l.done = n ∧ l.max = g.max ∧ l.eta = progEta left l.wrote l.took := by
  unfold Prog.tell at h
  dsimp only at h
  split at h
  · simp only [Option.some.injEq] at h
    subst h
    exact ⟨rfl, rfl, rfl⟩
  · cases h

theorem tell_max (g : Prog) (now n left : Int) : (g.tell now n left).1.max = g.max := by
  unfold Prog.tell
  dsimp only
  split <;> rfl

theorem rows_etas (lm : RowsLog) (hm : lm.prog.max = lm.rows.max) (ops : List (Int × Int)) :
    EtasOf (fun l => i64 (l.max - l.done)) (lm.run ops).2 := by
  induction ops generalizing lm with
  | nil => intro l h; simp [RowsLog.run] at h
  | cons o rest ih =>
    obtain ⟨now, k⟩ := o
    intro l h
    simp only [RowsLog.run, RowsLog.affected] at h
    rcases List.mem_append.1 h with h | h
    · obtain ⟨h1, h2, h3⟩ := tell_eta _ _ _ _ (Option.mem_toList.1 h)
      have e : (lm.rows.affected k).max = lm.rows.max := rfl
      dsimp only
      rw [h3, h1, h2, hm, e]
    · exact ih _ (by rw [tell_max]; exact hm) l h

theorem size_etas (g : Prog) (ops : List (Int × Nat)) :
    EtasOf (fun l => (l.max - l.done) % 18446744073709551616) (g.sizes ops).2 := by
  induction ops generalizing g with
  | nil => intro l h; simp [Prog.sizes] at h
  | cons o rest ih =>
    obtain ⟨now, b⟩ := o
    intro l h
    simp only [Prog.sizes, Prog.size] at h
    rcases List.mem_append.1 h with h | h
    · obtain ⟨h1, h2, h3⟩ := tell_eta _ _ _ _ (Option.mem_toList.1 h)
      dsimp only
      rw [h3, h1, h2]
    · exact ih _ l h

/-- Spec: the line tells the time that is left: at the rate of this line, what is left takes at least the seconds of
`eta` and less than one more. -/
def EtaRight (l : ProgLine) : Prop :=
  ∃ s : Int, l.eta = some (s * 1000000000) ∧ s * (l.wrote * 1000000000) ≤ (l.max - l.done) * l.took ∧
    (l.max - l.done) * l.took < (s + 1) * (l.wrote * 1000000000)

/-- **C134**: the lines of row limits tell the time that is left, if the maximum is not exceeded. -/
theorem C134_rows_eta_partial (lm : RowsLog) (hm : lm.prog.max = lm.rows.max) (ops : List (Int × Int)) {l : ProgLine}
    (h : l ∈ (lm.run ops).2) (h0 : 0 ≤ l.done) (h1 : l.done ≤ l.max) (h2 : l.max < 2 ^ 63) (hw : 0 < l.wrote)
    (ht : 0 < l.took) (hbig : (l.max - l.done) * l.took < 9223372036 * (l.wrote * 1000000000)) : EtaRight l := by
  have e : i64 (l.max - l.done) = l.max - l.done := Int.bmod_eq_of_le (by omega) (by omega)
  have := rows_etas lm hm ops l h
  simp only [e] at this
  unfold EtaRight
  rw [this]
  exact C134_eta_partial (by omega) hw ht hbig

/-- **C134**: the same for size limits. -/
theorem C134_size_eta_partial (g : Prog) (ops : List (Int × Nat)) {l : ProgLine}
    (h : l ∈ (g.sizes ops).2) (h0 : 0 ≤ l.done) (h1 : l.done ≤ l.max) (h2 : l.max < 2 ^ 64) (hw : 0 < l.wrote)
    (ht : 0 < l.took) (hbig : (l.max - l.done) * l.took < 9223372036 * (l.wrote * 1000000000)) : EtaRight l := by
  have e : (l.max - l.done) % 18446744073709551616 = l.max - l.done := Int.emod_eq_of_lt (by omega) (by omega)
  have := size_etas g ops l h
  simp only [e] at this
  unfold EtaRight
  rw [this]
  exact C134_eta_partial (by omega) hw ht hbig

/-- **C134**: reporting progress does not change the limit: it counts rows and says whether there is more as without. -/
theorem C134_limit (lm : RowsLog) (ops : List (Int × Int)) (now : Int) :
    ((lm.run ops).1.more now).2 = ((ops.map Prod.snd).foldl Rows.affected lm.rows).more := by
  have h : (lm.run ops).1.rows = (ops.map Prod.snd).foldl Rows.affected lm.rows := by
    induction ops generalizing lm with
    | nil => rfl
    | cons o rest ih =>
      obtain ⟨t, k⟩ := o
      simp only [RowsLog.run, List.map_cons, List.foldl_cons]
      rw [ih]
      rfl
  simp only [RowsLog.more, h]

/-- **C134**: from the start: a new row limit that is first asked at time `t` reports its progress every 5 percent, beginning
with its offset. Asking again changes nothing. A new size limit reports every 10, 5 or 2 percent, by its maximum. -/
theorem C134_started {max offset : Int} (hmax : 0 < max) {lm : RowsLog} (h : RowsLog.new max offset = some lm) (t : Int)
    (ops : List (Int × Int)) (hne : ops ≠ []) :
    ProgLines max 5 0 t offset ((lm.more t).1.run ops).2 ∧
    (((lm.more t).1.run ops).1.rows.n : ℚ) * 100 ≤ (lastPct 0 ((lm.more t).1.run ops).2 + 5) * max ∧
    (∀ t', ((lm.more t).1.more t').1 = (lm.more t).1) ∧
    ∀ (size : Nat) (checks : List (Int × Nat)), 0 < size → checks ≠ [] →
      ProgLines size (if size ≤ 2 ^ 30 then 10 else if size < 100 * 2 ^ 30 then 5 else 2) 0 t 0
        ((sizeProg size t).sizes checks).2 := by
  unfold RowsLog.new Rows.new at h
  rw [if_neg (by omega)] at h
  simp only [Option.map_some, Option.some.injEq] at h
  subst h
  have := C134_rows ((⟨⟨max, offset⟩, { max, r := 5, p := 0, t := none, last := offset }⟩ : RowsLog).more t).1 hmax rfl
    (t := t) rfl ops hne
  refine ⟨this.1, this.2, fun _ => rfl, ?_⟩
  intro size checks hs hc
  obtain ⟨x, hx⟩ : ∃ x, checks.getLast? = some x := by
    cases hg : checks.getLast? with
    | none => exact absurd (List.getLast?_eq_none_iff.1 hg) hc
    | some x => exact ⟨x, rfl⟩
  have hsplit := List.dropLast_append_getLast? x (Option.mem_def.2 hx)
  have h2 := (C134_size (sizeProg size t) (by simpa [sizeProg] using hs) (t := t) rfl checks.dropLast x.1 x.2).1
  rw [Prod.mk.eta, hsplit] at h2
  have hr : (sizeProg size t).r = if size ≤ 2 ^ 30 then 10 else if size < 100 * 2 ^ 30 then 5 else 2 := by
    simp only [sizeProg, sizeEvery]
    split_ifs <;> omega
  rw [hr] at h2
  exact h2

/-- A limit of 1000 rows that starts at second 0. -/
def exRowsLog : RowsLog := ⟨⟨1000, 0⟩, { max := 1000, r := 5, p := 0, t := some 0, last := 0 }⟩

example : (RowsLog.new 1000 0).map (fun lm => ((lm.more 0).1.rows, (lm.more 0).1.prog.t)) =
    some (exRowsLog.rows, exRowsLog.prog.t) := by decide +kernel

/-- 40 rows each second: a line every two seconds, 80 rows each, and the time that is left in seconds. -/
example : (exRowsLog.run ((List.range 5).map fun i => ((i + 1) * 1000000000, 40))).2.map
    (fun l => (l.done, l.pct, l.wrote, l.took, l.eta)) =
    [(80, 8, 80, 2000000000, some 23000000000), (160, 16, 80, 2000000000, some 21000000000)] := by decide +kernel

example : ((sizeProg 1000 0).sizes [(1000000000, 50), (2000000000, 200), (3000000000, 290), (4000000000, 310)]).2.map
    (fun l => (l.done, l.pct, l.wrote, l.took, l.eta)) =
    [(200, 20, 200, 2000000000, some 8000000000), (310, 31, 110, 2000000000, some 12000000000)] := by decide +kernel

/-- **C134 is false of the code** for size limits when the size found exceeds the maximum: `lm.max-bytes` is a difference
of uint64 (limit/data.go:246), and the line tells that more than 58 years are left when nothing is. -/
theorem C134_size_eta_false : ∃ l ∈ ((sizeProg 100000000000 0).sizes [(10000000000, 100000000001)]).2,
    l.max < l.done ∧ 58 * 365 * 24 * 3600 * 1000000000 < l.eta.getD 0 := by
  decide +kernel

/-- **C134 is false of the code** for row limits when the rows exceed the maximum: the time that is left is
negative. -/
theorem C134_rows_eta_false : ∃ l ∈ (exRowsLog.run [(1000000000, 200), (2000000000, 200), (9000000000, 700)]).2,
    l.done = 1100 ∧ l.eta = some (-1000000000) := by
  decide +kernel

end Finch
