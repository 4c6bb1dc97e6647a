import Verif.Model.RateTime
import Verif.Props.Rate
import Mathlib.Algebra.Order.Field.Basic
import Mathlib.Tactic.FieldSimp
import Mathlib.Tactic.Positivity
/-!
# C111: rate limits in any window of time
-/
namespace Finch

/-! ### The token bucket -/

theorem reserve_tokens_le {R : ℚ} {l : Bucket} {now : ℚ} :
    (l.reserve R now).1.tokens ≤ l.tokens + (now - l.last) * R - 1 ∧
    (l.reserve R now).1.tokens ≤ 0 ∧ (l.reserve R now).1.last = now := by
  refine ⟨?_, ?_, rfl⟩
  · have := min_le_right 1 (l.tokens + (now - l.last) * R)
    simp only [Bucket.reserve]; linarith
  · have := min_le_left 1 (l.tokens + (now - l.last) * R)
    simp only [Bucket.reserve]; linarith

theorem reserve_now_le {R : ℚ} (hR : 0 < R) {l : Bucket} {now : ℚ} : now ≤ (l.reserve R now).2 := by
  simp only [Bucket.reserve]
  split
  · next h =>
    have : 0 ≤ -(min 1 (l.tokens + (now - l.last) * R) - 1) / R := div_nonneg (by linarith) hR.le
    linarith
  · linarith

/-- When a call may go on there is a token. -/
theorem reserve_enough {R : ℚ} (hR : 0 < R) {l : Bucket} {now e : ℚ} (h : (l.reserve R now).2 ≤ e) :
    0 ≤ (l.reserve R now).1.tokens + (e - (l.reserve R now).1.last) * R := by
  simp only [Bucket.reserve] at h ⊢
  generalize min 1 (l.tokens + (now - l.last) * R) - 1 = t at *
  split at h
  · have h1 : -t / R ≤ e - now := by linarith
    have h2 : -t ≤ (e - now) * R := by rwa [div_le_iff₀ hR] at h1
    linarith
  · next ht =>
    have h1 : 0 ≤ (e - now) * R := mul_nonneg (by linarith) hR.le
    linarith

/-- Calls returning by time `e`. -/
def retBy (e : ℚ) (cs : List (ℚ × ℚ)) : Nat := cs.countP fun c => c.2 ≤ e

theorem retBy_late {R : ℚ} (hR : 0 < R) {e : ℚ} (cs : List (ℚ × ℚ)) : ∀ {l : Bucket} {prev : ℚ},
    Waits R l prev cs → e < prev → retBy e cs = 0 := by
  induction cs with
  | nil => intros; rfl
  | cons c cs ih =>
    intro l prev h hp
    obtain ⟨h1, h2, h3⟩ := h
    have := reserve_now_le hR (l := l) (now := c.1)
    have hc : e < c.2 := by linarith
    have := ih h3 hc
    unfold retBy at this ⊢
    rw [List.countP_cons_of_neg (by simpa using hc), this]

theorem retBy_le_tokens {R : ℚ} (hR : 0 < R) {e : ℚ} (cs : List (ℚ × ℚ)) : ∀ {l : Bucket} {prev : ℚ},
    Waits R l prev cs → 0 ≤ l.tokens + (e - l.last) * R →
    (retBy e cs : ℚ) ≤ l.tokens + (e - l.last) * R := by
  induction cs with
  | nil => intro l prev _ h; simpa [retBy] using h
  | cons c cs ih =>
    intro l prev h h0
    obtain ⟨h1, h2, h3⟩ := h
    by_cases hc : c.2 ≤ e
    · have he := reserve_enough hR (le_trans h2 hc)
      have := ih h3 he
      obtain ⟨t1, -, t3⟩ := reserve_tokens_le (R := R) (l := l) (now := c.1)
      rw [t3] at this he
      unfold retBy at this ⊢
      rw [List.countP_cons_of_pos (by simpa using hc)]
      push_cast
      linarith
    · have := retBy_late hR (e := e) cs h3 (by linarith)
      unfold retBy at this ⊢
      rw [List.countP_cons_of_neg (by simpa using hc), this]
      simpa using h0

theorem retBy_after {R : ℚ} (hR : 0 < R) {s T : ℚ} (hT : 0 ≤ T) (cs : List (ℚ × ℚ)) {l : Bucket}
    {prev : ℚ} (h : Waits R l prev cs) (hs : s ≤ prev) : (retBy (s + T) cs : ℚ) ≤ R * T + 1 := by
  cases cs with
  | nil =>
    have : 0 ≤ R * T := by positivity
    simp [retBy]; linarith
  | cons c cs =>
    obtain ⟨h1, h2, h3⟩ := h
    by_cases hc : c.2 ≤ s + T
    · have he := reserve_enough hR (le_trans h2 hc)
      have := retBy_le_tokens hR cs h3 he
      obtain ⟨-, t2, t3⟩ := reserve_tokens_le (R := R) (l := l) (now := c.1)
      rw [t3] at this
      have h4 : (s + T - c.1) * R ≤ T * R := by
        apply mul_le_mul_of_nonneg_right _ hR.le
        linarith
      unfold retBy at this ⊢
      rw [List.countP_cons_of_pos (by simpa using hc)]
      push_cast
      linarith
    · have := retBy_late hR (e := s + T) cs h3 (by linarith)
      unfold retBy at this ⊢
      rw [List.countP_cons_of_neg (by simpa using hc), this]
      have : 0 ≤ R * T := by positivity
      push_cast; linarith

/-- **C111, one limiter.** In any window of `T` seconds, `Wait` of a limiter of `R` per second returns
at most `R * T + 2` times, however late its caller is woken. -/
theorem C111_returns_in_window {R : ℚ} (hR : 0 < R) {s T : ℚ} (hT : 0 ≤ T) (cs : List (ℚ × ℚ)) :
    ∀ {l : Bucket} {prev : ℚ}, Waits R l prev cs →
      (cs.countP (fun c => s ≤ c.2 ∧ c.2 ≤ s + T) : ℚ) ≤ R * T + 2 := by
  induction cs with
  | nil =>
    intro l prev _
    have : 0 ≤ R * T := by positivity
    simp; linarith
  | cons c cs ih =>
    intro l prev h
    obtain ⟨h1, h2, h3⟩ := h
    by_cases hc : s ≤ c.2
    · have := retBy_after hR hT cs h3 hc
      have hle : cs.countP (fun c => s ≤ c.2 ∧ c.2 ≤ s + T) ≤ retBy (s + T) cs := by
        apply List.countP_mono_left
        intro x _ hx
        simp only [decide_eq_true_eq] at hx ⊢
        exact hx.2
      have hle' : ((cs.countP (fun c => s ≤ c.2 ∧ c.2 ≤ s + T) : Nat) : ℚ) ≤ retBy (s + T) cs := by
        exact_mod_cast hle
      have h5 : ((c :: cs).countP (fun c => s ≤ c.2 ∧ c.2 ≤ s + T)) ≤
          cs.countP (fun c => s ≤ c.2 ∧ c.2 ≤ s + T) + 1 := by
        rw [List.countP_cons]; split <;> omega
      have h6 : (((c :: cs).countP (fun c => s ≤ c.2 ∧ c.2 ≤ s + T) : Nat) : ℚ) ≤
          cs.countP (fun c => s ≤ c.2 ∧ c.2 ≤ s + T) + 1 := by
        exact_mod_cast h5
      linarith
    · rw [List.countP_cons_of_neg (by simp; intro h; exact absurd h hc)]
      exact ih h3

/-! ### Permits that are held -/

/-- Every combination is of an earlier limiter and a single rate made just for it. -/
def RGraph.Comb (g : RGraph) : Prop :=
  ∀ j a b : Nat, g[j]? = some (.and a b) → a < b ∧ b < j ∧ ∃ n, g[b]? = some (.rate n)

theorem paths_below (g : RGraph) (hwf : g.WF) (i : Nat) : ∀ l, l < i → paths g i l = 0 := by
  intro l
  induction l using Nat.strong_induction_on with
  | _ l ih =>
    intro hl
    have hne : l ≠ i := by omega
    cases hg : g[l]? with
    | none => unfold paths; simp [hne, hg]
    | some x =>
      cases x with
      | rate n => exact paths_rate g i l n hg hne
      | and a b =>
        obtain ⟨ha, hb⟩ := hwf l a b hg
        rw [paths_and g hwf i l a b hg hne, ih a ha (by omega), ih b hb (by omega)]

theorem paths_le_one (g : RGraph) (hwf : g.WF) (hc : g.Comb) (i : Nat) : ∀ l, paths g i l ≤ 1 := by
  intro l
  induction l using Nat.strong_induction_on with
  | _ l ih =>
    by_cases hne : l = i
    · subst hne; rw [paths_self]
    cases hg : g[l]? with
    | none => unfold paths; simp [hne, hg]
    | some x =>
      cases x with
      | rate n => rw [paths_rate g i l n hg hne]; omega
      | and a b =>
        obtain ⟨ha, hb⟩ := hwf l a b hg
        obtain ⟨hab, -, n, hn⟩ := hc l a b hg
        rw [paths_and g hwf i l a b hg hne]
        by_cases hbi : b = i
        · subst hbi; rw [paths_self, paths_below g hwf b a hab]
        · rw [paths_rate g i b n hn hbi]; simpa using ih a ha

theorem limited_of_paths (g : RGraph) (hwf : g.WF) (i : Nat) : ∀ l, 0 < paths g i l → LimitedBy g i l := by
  intro l
  induction l using Nat.strong_induction_on with
  | _ l ih =>
    intro hp
    by_cases hne : l = i
    · subst hne; exact .self
    cases hg : g[l]? with
    | none => unfold paths at hp; simp [hne, hg] at hp
    | some x =>
      cases x with
      | rate n => rw [paths_rate g i l n hg hne] at hp; omega
      | and a b =>
        obtain ⟨ha, hb⟩ := hwf l a b hg
        rw [paths_and g hwf i l a b hg hne] at hp
        by_cases h : 0 < paths g i a
        · exact .left hg (ih a ha h)
        · exact .right hg (ih b hb (by omega))

open Classical in
/-- Spec: the limiters that were combined with limiter `i`, directly or not. -/
noncomputable def behind (g : RGraph) (i : Nat) : Finset Nat :=
  (Finset.range g.length).filter fun j => j ≠ i ∧ LimitedBy g i j

/-- Permits of limiter `i` in channels and goroutines. -/
def held (g : RGraph) (i : Nat) (s : RState) : Int :=
  ∑ l ∈ Finset.range g.length, chanTerm g i s l + ∑ j ∈ Finset.range g.length, flagTerm g i s j

theorem held_le (g : RGraph) (hwf : g.WF) (hc : g.Comb) (i n : Nat) (hi : g[i]? = some (.rate n))
    (s : RState) : held g i s ≤ 2 * (behind g i).card + 1 := by
  classical
  have hil := lt_of_get hi
  unfold held
  rw [← Finset.sum_add_distrib]
  have hterm : ∀ l ∈ Finset.range g.length, chanTerm g i s l + flagTerm g i s l ≤
      (if l = i then 1 else 0) + (if l ∈ behind g i then 2 else 0) := by
    intro l hl
    have hp := paths_le_one g hwf hc i l
    have hb : ∀ b : Bool, 0 ≤ b2i b ∧ b2i b ≤ 1 := by intro b; cases b <;> simp [b2i]
    have hc1 : chanTerm g i s l ≤ paths g i l := by
      unfold chanTerm
      nlinarith [hb (s.chan l), Int.natCast_nonneg (paths g i l)]
    by_cases hli : l = i
    · subst hli
      have : flagTerm g l s l = 0 := by simp [flagTerm, hi]
      have hnot : l ∉ behind g l := by simp [behind]
      rw [this, if_pos rfl, if_neg hnot]
      omega
    · by_cases hz : paths g i l = 0
      · have h1 : flagTerm g i s l ≤ 0 := by
          unfold flagTerm
          split
          · next a b hg =>
            rw [paths_and g hwf i l a b hg hli] at hz
            have e1 : paths g i a = 0 := by omega
            have e2 : paths g i b = 0 := by omega
            simp [e1, e2]
          · exact le_refl _
        rw [if_neg hli]
        have : (0 : Int) ≤ if l ∈ behind g i then 2 else 0 := by split <;> simp
        omega
      · have hbm : l ∈ behind g i := by
          simp only [behind, Finset.mem_filter]
          exact ⟨hl, hli, limited_of_paths g hwf i l (by omega)⟩
        have h1 : flagTerm g i s l ≤ paths g i l := by
          unfold flagTerm
          split
          · next a b hg =>
            rw [paths_and g hwf i l a b hg hli]
            push_cast
            nlinarith [hb (s.flagA l), hb (s.flagB l), Int.natCast_nonneg (paths g i a),
              Int.natCast_nonneg (paths g i b)]
          · omega
        rw [if_neg hli, if_pos hbm]
        omega
  refine le_trans (Finset.sum_le_sum hterm) ?_
  rw [Finset.sum_add_distrib, Finset.sum_ite_eq' (Finset.range g.length) i fun _ => (1 : Int),
    if_pos (Finset.mem_range.2 hil), ← Finset.sum_filter]
  have hsub : (Finset.range g.length).filter (fun l => l ∈ behind g i) ⊆ behind g i := by
    intro x hx; exact (Finset.mem_filter.1 hx).2
  rw [Finset.sum_const, nsmul_eq_mul]
  have := Finset.card_le_card hsub
  omega

/-! ### The limiters of a stage -/

theorem Comb.append_rate {g : RGraph} (h : g.Comb) (n : Nat) : RGraph.Comb (g ++ [.rate n]) := by
  intro j a b hj
  rw [List.getElem?_append] at hj
  split at hj
  · obtain ⟨h1, h2, m, h3⟩ := h j a b hj
    exact ⟨h1, h2, m, by rw [List.getElem?_append_left (lt_of_get h3), h3]⟩
  · rw [List.getElem?_singleton] at hj; split at hj <;> cases hj

theorem andNew_comb {g : RGraph} (h : g.Comb) (parent : Option Nat) (n : Nat)
    (hp : ∀ p, parent = some p → p < g.length) : (andNew g parent n).1.Comb := by
  unfold andNew newRate
  by_cases hn : n = 0
  · subst hn
    cases parent <;> simpa [andRate] using h
  · cases parent with
    | none => simpa [hn, andRate] using Comb.append_rate h n
    | some p =>
      have hp := hp p rfl
      simp only [if_neg hn, andRate]
      have h1 := Comb.append_rate h n
      intro j a b hj
      rw [List.getElem?_append] at hj
      split at hj
      · obtain ⟨g1, g2, m, g3⟩ := h1 j a b hj
        exact ⟨g1, g2, m, by rw [List.getElem?_append_left (lt_of_get g3), g3]⟩
      · next hlt =>
        rw [List.getElem?_singleton] at hj
        split at hj
        · simp only [Option.some.injEq, RNode.and.injEq] at hj
          obtain ⟨rfl, rfl⟩ := hj
          simp only [List.length_append, List.length_singleton, not_lt] at hlt
          exact ⟨hp, by omega, n, by simp⟩
        · cases hj

theorem buildClients_comb (qps k : Nat) : ∀ {g : RGraph} (_ : g.Comb) (parent : Option Nat)
    (_ : ∀ p, parent = some p → p < g.length), (buildClients g parent qps k).1.Comb := by
  induction k with
  | zero => intro g h parent _; exact h
  | succ k ih =>
    intro g h parent hp
    obtain ⟨b1, c1⟩ := andNew_spec g parent qps hp
    simp only [buildClients]
    exact ih (andNew_comb h parent qps hp) parent (fun p hh => lt_of_lt_of_le (hp p hh) b1.len)

theorem buildGroups_comb (cgs : List RateCG) : ∀ {g : RGraph} (_ : g.Comb) (parent : Option Nat)
    (_ : ∀ p, parent = some p → p < g.length), (buildGroups g parent cgs).1.Comb := by
  induction cgs with
  | nil => intro g h parent _; exact h
  | cons cg cgs ih =>
    intro g h parent hp
    obtain ⟨b1, c1⟩ := andNew_spec g parent cg.clientsQps hp
    obtain ⟨b2, -, -⟩ := buildClients_spec (andNew g parent cg.clientsQps).1
      (andNew g parent cg.clientsQps).2 cg.qps cg.clients c1.valid
    simp only [buildGroups]
    exact ih (buildClients_comb _ _ (andNew_comb h parent _ hp) _ c1.valid) parent
      (fun p hh => lt_of_lt_of_le (hp p hh) (b1.trans b2).len)

theorem buildExecGroups_comb (egs : List RateEG) : ∀ {g : RGraph} (_ : g.Comb) (parent : Option Nat)
    (_ : ∀ p, parent = some p → p < g.length), (buildExecGroups g parent egs).1.Comb := by
  induction egs with
  | nil => intro g h parent _; exact h
  | cons eg egs ih =>
    intro g h parent hp
    obtain ⟨b1, c1⟩ := andNew_spec g parent eg.qps hp
    obtain ⟨b2, -⟩ := buildGroups_spec (andNew g parent eg.qps).1 (andNew g parent eg.qps).2
      eg.groups c1.valid
    simp only [buildExecGroups]
    exact ih (buildGroups_comb _ (andNew_comb h parent _ hp) _ c1.valid) parent
      (fun p hh => lt_of_lt_of_le (hp p hh) (b1.trans b2).len)

theorem buildStage_comb (stageQps : Nat) (egs : List RateEG) : (buildStage stageQps egs).1.Comb := by
  refine buildExecGroups_comb egs ?_ _ ?_
  · unfold newRate
    split
    · intro j a b hj; simp at hj
    · intro j a b hj
      simp only [List.nil_append, List.getElem?_singleton] at hj
      split at hj <;> cases hj
  · unfold newRate
    intro p
    split <;> simp
    omega

/-- Is this limiter a combination? -/
def RNode.isAnd : RNode → Bool
  | .and _ _ => true
  | .rate _ => false

theorem andNew_ands (g : RGraph) (p : Option Nat) (n : Nat) :
    (andNew g p n).1.countP RNode.isAnd ≤ g.countP RNode.isAnd + 1 := by
  unfold andNew newRate
  cases p <;> by_cases hn : n = 0 <;> simp [hn, andRate, List.countP_append, RNode.isAnd]

theorem buildClients_ands (qps k : Nat) : ∀ (g : RGraph) (p : Option Nat),
    (buildClients g p qps k).1.countP RNode.isAnd ≤ g.countP RNode.isAnd + k := by
  induction k with
  | zero => intro g p; exact le_refl _
  | succ k ih =>
    intro g p
    have h1 := andNew_ands g p qps
    have h2 := ih (andNew g p qps).1 p
    simp only [buildClients]
    omega

theorem buildGroups_ands (cgs : List RateCG) : ∀ (g : RGraph) (p : Option Nat),
    (buildGroups g p cgs).1.countP RNode.isAnd ≤
      g.countP RNode.isAnd + (cgs.length + (cgs.map RateCG.clients).sum) := by
  induction cgs with
  | nil => intro g p; exact le_refl _
  | cons cg cgs ih =>
    intro g p
    have h1 := andNew_ands g p cg.clientsQps
    have h2 := buildClients_ands cg.qps cg.clients (andNew g p cg.clientsQps).1 (andNew g p cg.clientsQps).2
    have h3 := ih (buildClients (andNew g p cg.clientsQps).1 (andNew g p cg.clientsQps).2 cg.qps cg.clients).1 p
    simp only [buildGroups, List.length_cons, List.map_cons, List.sum_cons]
    omega

theorem buildExecGroups_ands (egs : List RateEG) : ∀ (g : RGraph) (p : Option Nat),
    (buildExecGroups g p egs).1.countP RNode.isAnd ≤ g.countP RNode.isAnd +
      (egs.length + (egs.map fun eg => eg.groups.length + (eg.groups.map RateCG.clients).sum).sum) := by
  induction egs with
  | nil => intro g p; exact le_refl _
  | cons eg egs ih =>
    intro g p
    have h1 := andNew_ands g p eg.qps
    have h2 := buildGroups_ands eg.groups (andNew g p eg.qps).1 (andNew g p eg.qps).2
    have h3 := ih (buildGroups (andNew g p eg.qps).1 (andNew g p eg.qps).2 eg.groups).1 p
    simp only [buildExecGroups, List.length_cons, List.map_cons, List.sum_cons]
    omega

theorem ands_card (g : RGraph) :
    ((Finset.range g.length).filter fun j => (g[j]?.map RNode.isAnd) = some true).card =
      g.countP RNode.isAnd := by
  induction g using List.reverseRecOn with
  | nil => rfl
  | append_singleton g x ih =>
    rw [List.length_append, List.length_singleton, Finset.range_add_one, Finset.filter_insert,
      List.countP_append, ← ih]
    have e : (Finset.range g.length).filter (fun j => ((g ++ [x])[j]?.map RNode.isAnd) = some true) =
        (Finset.range g.length).filter (fun j => (g[j]?.map RNode.isAnd) = some true) := by
      apply Finset.filter_congr
      intro j hj
      rw [List.getElem?_append_left (Finset.mem_range.1 hj)]
    rw [e]
    cases hx : x.isAnd <;> simp [hx]

/-- **C111.** At most as many limiters are combined with another as there are execution groups, client
groups and clients. -/
theorem C111_behind_bound (stageQps : Nat) (egs : List RateEG) (i : Nat) :
    (behind (buildStage stageQps egs).1 i).card ≤ egs.length +
      (egs.map fun eg => eg.groups.length + (eg.groups.map RateCG.clients).sum).sum := by
  have h1 := buildExecGroups_ands egs (newRate [] stageQps).1 (newRate [] stageQps).2
  have h0 : (newRate [] stageQps).1.countP RNode.isAnd = 0 := by
    unfold newRate; split <;> simp [RNode.isAnd]
  have h2 : (behind (buildStage stageQps egs).1 i).card ≤ (buildStage stageQps egs).1.countP RNode.isAnd := by
    rw [← ands_card]
    apply Finset.card_le_card
    intro j hj
    simp only [behind, Finset.mem_filter] at hj ⊢
    refine ⟨hj.1, ?_⟩
    obtain ⟨-, hne, hl⟩ := hj
    cases hl with
    | self => exact absurd rfl hne
    | left hg _ => simp [hg, RNode.isAnd]
    | right hg _ => simp [hg, RNode.isAnd]
  unfold buildStage at h2 ⊢
  omega

/-! ### Permits in a window -/

theorem runT_append (g : RGraph) (lims : List (Option Nat)) (s : RState) (a b : TSteps) :
    s.runT g lims (a ++ b) = (s.runT g lims a).runT g lims b := by
  simp [RState.runT, RState.run, List.foldl_append]

theorem ticks_runT (g : RGraph) (lims : List (Option Nat)) (i n : Nat) (hi : g[i]? = some (.rate n))
    (steps : TSteps) : ∀ s : RState,
    (s.runT g lims steps).ticks i = s.ticks i + (tickTimes i steps).length := by
  induction steps with
  | nil => intro s; rfl
  | cons x steps ih =>
    intro s
    have h1 : s.runT g lims (x :: steps) = (s.step g lims x.2).runT g lims steps := rfl
    rw [h1, ih]
    by_cases hx : x.2 = .tick i
    · rw [hx]
      simp only [RState.step, hi, upd, if_true, tickTimes, List.filter_cons, hx, decide_true,
        List.map_cons, List.length_cons]
      omega
    · have h2 : (s.step g lims x.2).ticks i = s.ticks i := by
        cases hx2 : x.2 with
        | tick k =>
          have hk : i ≠ k := by rintro rfl; exact hx hx2
          simp only [RState.step]
          split <;> simp [upd, hk]
        | recvA j => simp only [RState.step]; split <;> (try split) <;> rfl
        | recvB j => simp only [RState.step]; split <;> (try split) <;> rfl
        | test j => simp only [RState.step]; split <;> (try split) <;> (try split) <;> rfl
        | take c => simp only [RState.step]; split <;> (try split) <;> rfl
      rw [h2]
      simp [tickTimes, hx]

theorem got_mono (g : RGraph) (lims : List (Option Nat)) (steps : List RStep) :
    ∀ (s : RState) (c : Nat), s.got c ≤ (s.run g lims steps).got c := by
  induction steps with
  | nil => intro s c; exact le_refl _
  | cons st steps ih =>
    intro s c
    refine le_trans ?_ (ih (s.step g lims st) c)
    cases st with
    | tick k => simp only [RState.step]; split <;> exact le_refl _
    | recvA j => simp only [RState.step]; split <;> (try split) <;> exact le_refl _
    | recvB j => simp only [RState.step]; split <;> (try split) <;> exact le_refl _
    | test j => simp only [RState.step]; split <;> (try split) <;> (try split) <;> exact le_refl _
    | take c' =>
      simp only [RState.step]
      split
      · split
        · simp only [upd]; split
          · next h => subst h; omega
          · exact le_refl _
        · exact le_refl _
      · exact le_refl _

theorem received_le_ticks_held (g : RGraph) (hwf : g.WF) (lims : List (Option Nat))
    (hl : ∀ c l : Nat, lims[c]? = some (some l) → l < g.length)
    (i n : Nat) (hi : g[i]? = some (.rate n)) (S : Finset Nat)
    (hS : ∀ c ∈ S, ∃ l, lims[c]? = some (some l) ∧ LimitedBy g i l) (steps : List RStep) (s : RState) :
    ((∑ c ∈ S, (s.run g lims steps).got c : Nat) : Int) + s.ticks i ≤
      (∑ c ∈ S, s.got c : Nat) + (s.run g lims steps).ticks i + held g i s := by
  have h := permits_run g hwf lims hl i n hi steps s
  have hmono := got_mono g lims steps s
  generalize s.run g lims steps = s' at *
  have c1 : 0 ≤ ∑ l ∈ Finset.range g.length, chanTerm g i s' l :=
    Finset.sum_nonneg (fun l _ => by unfold chanTerm b2i; split <;> simp)
  have c2 : 0 ≤ ∑ l ∈ Finset.range g.length, flagTerm g i s' l := by
    apply Finset.sum_nonneg
    intro l _
    unfold flagTerm
    split
    · unfold b2i; split <;> split <;> simp; omega
    · exact le_refl _
  have hsub : S ⊆ Finset.range lims.length := by
    intro c hc
    obtain ⟨l, h1, -⟩ := hS c hc
    exact Finset.mem_range.mpr (lt_of_get h1)
  -- the increase
  have hnn : ∀ c, 0 ≤ gotTerm g lims i s' c - gotTerm g lims i s c := by
    intro c; unfold gotTerm; split
    · have := hmono c
      rw [← mul_sub]
      exact Int.mul_nonneg (by omega) (by omega)
    · simp
  have c3 : ((∑ c ∈ S, s'.got c : Nat) : Int) - (∑ c ∈ S, s.got c : Nat) ≤
      ∑ c ∈ S, (gotTerm g lims i s' c - gotTerm g lims i s c) := by
    push_cast
    rw [← Finset.sum_sub_distrib]
    apply Finset.sum_le_sum
    intro c hc
    obtain ⟨l, h1, h2⟩ := hS c hc
    have := h2.paths_pos hwf
    simp only [gotTerm, h1]
    have h3 : (1 : Int) ≤ paths g i l := by omega
    have h4 := hmono c
    nlinarith
  have c4 : ∑ c ∈ S, (gotTerm g lims i s' c - gotTerm g lims i s c) ≤
      ∑ c ∈ Finset.range lims.length, (gotTerm g lims i s' c - gotTerm g lims i s c) :=
    Finset.sum_le_sum_of_subset_of_nonneg hsub (fun c _ _ => hnn c)
  rw [Finset.sum_sub_distrib, Finset.sum_sub_distrib] at c4
  rw [Finset.sum_sub_distrib] at c3
  unfold permits at h
  unfold held
  omega

/-- **C111 (partial).** Take any limiters as a stage builds them, and any schedule in which limiter `i`
ticks as `Wait` of a token bucket of `n` per second returns. In any window of `T` seconds, any clients
whose permits come out of limiter `i` receive together at most `n * T + 3` permits and two more for each
limiter that was combined with `i`: those may have been saved up before.

Partial: the constant is not independent of the number of clients (`C111_burst_false`). -/
theorem C111_window_partial (stageQps : Nat) (egs : List RateEG) (i n : Nat) (hn : 0 < n)
    (hi : (buildStage stageQps egs).1[i]? = some (.rate n)) (S : Finset Nat)
    (hS : ∀ c ∈ S, ∃ l, (stageLims stageQps egs)[c]? = some (some l) ∧
      LimitedBy (buildStage stageQps egs).1 i l)
    (before window : TSteps) (htick : TicksAsConfigured n i (before ++ window))
    (s T : ℚ) (hT : 0 ≤ T) (hwin : ∀ x ∈ window, s ≤ x.1 ∧ x.1 ≤ s + T) :
    ((received stageQps egs ((before ++ window).map (·.2)) S : Nat) : ℚ) -
        (received stageQps egs (before.map (·.2)) S : Nat) ≤
      n * T + 3 + 2 * (behind (buildStage stageQps egs).1 i).card := by
  obtain ⟨hwf, hl, -⟩ := buildStage_wf stageQps egs
  have hc := buildStage_comb stageQps egs
  unfold received
  generalize (buildStage stageQps egs).1 = g at *
  generalize stageLims stageQps egs = lims at *
  have e1 : RState.init.run g lims ((before ++ window).map (·.2)) =
      (RState.init.runT g lims before).runT g lims window := runT_append g lims _ _ _
  have e2 : RState.init.run g lims (before.map (·.2)) = RState.init.runT g lims before := rfl
  rw [e1, e2]
  generalize RState.init.runT g lims before = st at *
  have h1 := received_le_ticks_held g hwf lims hl i n hi S hS (window.map (·.2)) st
  have h2 := held_le g hwf hc i n hi st
  have h3 := ticks_runT g lims i n hi window st
  obtain ⟨t0, calls, hw, hcalls⟩ := htick
  have h4 := C111_returns_in_window (R := n) (by exact_mod_cast hn) (s := s) hT calls hw
  have h5 : (tickTimes i window).length ≤ calls.countP (fun c => s ≤ c.2 ∧ c.2 ≤ s + T) := by
    have h6 : calls.countP (fun c => s ≤ c.2 ∧ c.2 ≤ s + T) =
        (tickTimes i (before ++ window)).countP (fun t => s ≤ t ∧ t ≤ s + T) := by
      rw [← hcalls, List.countP_map]; rfl
    have h7 : tickTimes i (before ++ window) = tickTimes i before ++ tickTimes i window := by
      simp [tickTimes]
    rw [h6, h7, List.countP_append]
    have h8 : (tickTimes i window).countP (fun t => s ≤ t ∧ t ≤ s + T) =
        (tickTimes i window).length := by
      rw [List.countP_eq_length]
      intro t ht
      simp only [tickTimes, List.mem_map, List.mem_filter] at ht
      obtain ⟨x, ⟨hx, -⟩, rfl⟩ := ht
      simpa using hwin x hx
    omega
  change ((∑ c ∈ S, (st.runT g lims window).got c : Nat) : Int) + _ ≤ _ at h1
  change _ ≤ (_ : Int) + ((st.runT g lims window).ticks i : Int) + _ at h1
  rw [h3] at h1
  have h9 : ((∑ c ∈ S, (st.runT g lims window).got c : Nat) : Int) ≤ (∑ c ∈ S, st.got c : Nat) +
      (tickTimes i window).length + (2 * (behind g i).card + 1) := by
    push_cast at h1 h2 ⊢
    linarith
  have h10 : ((∑ c ∈ S, (st.runT g lims window).got c : Nat) : ℚ) ≤ (∑ c ∈ S, st.got c : Nat) +
      (tickTimes i window).length + (2 * (behind g i).card + 1) := by
    exact_mod_cast h9
  have h11 : ((tickTimes i window).length : ℚ) ≤
      calls.countP (fun c => s ≤ c.2 ∧ c.2 ≤ s + T) := by exact_mod_cast h5
  linarith

/-- Spec: permits that clients `S` received in the steps `window` after the steps `before`. -/
def receivedIn (stageQps : Nat) (egs : List RateEG) (before window : TSteps) (S : Finset Nat) : ℚ :=
  ((received stageQps egs ((before ++ window).map (·.2)) S : Nat) : ℚ) -
    (received stageQps egs (before.map (·.2)) S : Nat)

/-- Spec: limit `n` per second holds for clients `S`. There is a limiter of `n` per second such that, in
any schedule in which it ticks as it was configured, in any window of `T` seconds the clients receive at
most `n * T + 3` permits together, and two more for each limiter that was combined with it. -/
def WindowLimit (stageQps : Nat) (egs : List RateEG) (n : Nat) (S : Finset Nat) : Prop :=
  ∃ i, (buildStage stageQps egs).1[i]? = some (.rate n) ∧
    ∀ (before window : TSteps) (s T : ℚ), TicksAsConfigured n i (before ++ window) → 0 ≤ T →
      (∀ x ∈ window, s ≤ x.1 ∧ x.1 ≤ s + T) →
      receivedIn stageQps egs before window S ≤
        n * T + 3 + 2 * (behind (buildStage stageQps egs).1 i).card

/-- **C111 (partial).** The limit of the stage (`qps` or `tps`), for all its clients together. -/
theorem C111_stage_window_partial (stageQps : Nat) (egs : List RateEG) (hq : 0 < stageQps) :
    WindowLimit stageQps egs stageQps (Finset.range (stageLims stageQps egs).length) := by
  obtain ⟨i, h1, h2⟩ := stage_limited stageQps egs hq
  exact ⟨i, h1, fun before window s T ht hT hw =>
    C111_window_partial stageQps egs i _ hq h1 _ h2 before window ht s T hT hw⟩

/-- **C111 (partial).** The limit of an execution group (`qps-exec-group`), for all its clients together. -/
theorem C111_exec_group_window_partial (stageQps : Nat) (egs : List RateEG) (e : Nat) (eg : RateEG)
    (he : egs[e]? = some eg) (hq : 0 < eg.qps) :
    WindowLimit stageQps egs eg.qps (block ((buildStage stageQps egs).2.map List.flatten) e) := by
  obtain ⟨i, h1, h2⟩ := exec_group_limited stageQps egs e eg he hq
  exact ⟨i, h1, fun before window s T ht hT hw =>
    C111_window_partial stageQps egs i _ hq h1 _ h2 before window ht s T hT hw⟩

/-- **C111 (partial).** The limit of a client group (`qps-clients`), for all its clients together. -/
theorem C111_client_group_window_partial (stageQps : Nat) (egs : List RateEG) (k : Nat) (cg : RateCG)
    (hk : (egs.map RateEG.groups).flatten[k]? = some cg) (hq : 0 < cg.clientsQps) :
    WindowLimit stageQps egs cg.clientsQps (block (buildStage stageQps egs).2.flatten k) := by
  obtain ⟨i, h1, h2⟩ := client_group_limited stageQps egs k cg hk hq
  exact ⟨i, h1, fun before window s T ht hT hw =>
    C111_window_partial stageQps egs i _ hq h1 _ h2 before window ht s T hT hw⟩

/-- **C111 (partial).** The limit of each client (`qps`). -/
theorem C111_client_window_partial (stageQps : Nat) (egs : List RateEG) (k : Nat) (cg : RateCG)
    (hk : (egs.map RateEG.groups).flatten[k]? = some cg) (hq : 0 < cg.qps) (c : Nat)
    (hc : c ∈ block (buildStage stageQps egs).2.flatten k) :
    WindowLimit stageQps egs cg.qps {c} := by
  obtain ⟨i, h1, h2⟩ := client_limited stageQps egs k cg hk hq c hc
  exact ⟨i, h1, fun before window s T ht hT hw =>
    C111_window_partial stageQps egs i _ hq h1 _ h2 before window ht s T hT hw⟩

/-! ### The constant depends on the number of clients -/

instance Waits.dec (R : ℚ) : ∀ (l : Bucket) (prev : ℚ) (cs : List (ℚ × ℚ)), Decidable (Waits R l prev cs)
  | _, _, [] => .isTrue trivial
  | l, _, c :: cs =>
    have := Waits.dec R (l.reserve R c.1).1 c.2 cs
    inferInstanceAs (Decidable (_ ∧ _ ∧ _))

/-- One permit a second for the stage and one for each of ten clients. The clients are busy for ten
seconds, and their permits are put aside. -/
def burstBefore : TSteps :=
  (List.range 10).flatMap fun k : Nat =>
    [((k : ℚ), .tick 0), ((k : ℚ), .recvA (2 * k + 2)), ((k : ℚ), .test (2 * k + 2)),
     ((k : ℚ), .tick (2 * k + 1)), ((k : ℚ), .recvB (2 * k + 2)), ((k : ℚ), .test (2 * k + 2))]

/-- Then they all receive their permits at the same time. -/
def burstWindow : TSteps := (List.range 10).map fun k : Nat => ((10 : ℚ), .take k)

/-- **C111, not in the code.** A limit of 1 per second for the stage does not hold in a window up to a
constant: ten clients with a limit of 1 per second each receive ten permits in one instant, all limiters
ticking as configured. -/
theorem C111_burst_false :
    (∀ i n : Nat, (buildStage 1 [⟨0, [⟨0, 1, 10⟩]⟩]).1[i]? = some (.rate n) →
      TicksAsConfigured n i (burstBefore ++ burstWindow)) ∧
    (∀ x ∈ burstWindow, x.1 = 10) ∧
    receivedIn 1 [⟨0, [⟨0, 1, 10⟩]⟩] burstBefore burstWindow
      (Finset.range (stageLims 1 [⟨0, [⟨0, 1, 10⟩]⟩]).length) = 10 := by
  refine ⟨?_, by decide +kernel, by decide +kernel⟩
  have h : ∀ i < 21, ∀ n ∈ (buildStage 1 [⟨0, [⟨0, 1, 10⟩]⟩]).1[i]?.toList, n = .rate 1 →
      Waits 1 (Bucket.new 0) 0 (List.zip ((0 : ℚ) :: tickTimes i (burstBefore ++ burstWindow))
        (tickTimes i (burstBefore ++ burstWindow))) := by decide +kernel
  have hr : ∀ x ∈ (buildStage 1 [⟨0, [⟨0, 1, 10⟩]⟩]).1, x = .rate 1 ∨ ∃ a < 21, ∃ b < 21, x = .and a b := by
    decide +kernel
  have hlen : (buildStage 1 [⟨0, [⟨0, 1, 10⟩]⟩]).1.length = 21 := by decide +kernel
  intro i n hi
  have hn : n = 1 := by
    rcases hr _ (List.mem_of_getElem? hi) with h1 | ⟨a, -, b, -, h1⟩
    · exact RNode.rate.inj h1
    · cases h1
  subst hn
  have hil := lt_of_get hi
  rw [hlen] at hil
  refine ⟨0, _, by simpa using h i hil _ (by rw [hi]; simp) rfl, ?_⟩
  rw [List.map_snd_zip]
  simp

/-- The hypotheses are met: two clients, a stage limit of 2 per second, a window of one second. -/
example : TicksAsConfigured 2 0 ([(0, .tick 0), (0, .take 0)] ++
      [((1 : ℚ) / 2, .tick 0), ((1 : ℚ) / 2, .take 1), (1, .tick 0), (1, .take 0)]) ∧
    receivedIn 2 [⟨0, [⟨0, 0, 2⟩]⟩] [(0, .tick 0), (0, .take 0)]
      [((1 : ℚ) / 2, .tick 0), ((1 : ℚ) / 2, .take 1), (1, .tick 0), (1, .take 0)]
      (Finset.range 2) = 2 := by
  refine ⟨⟨0, [(0, 0), (0, 1 / 2), (1 / 2, 1)], ?_, ?_⟩, ?_⟩ <;> decide +kernel

end Finch
