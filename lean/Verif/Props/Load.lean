import Verif.Model.Load
import Verif.Props.ConfigBase
import Verif.Props.StageVars
import Mathlib.Order.Basic
import Mathlib.Order.Defs.LinearOrder
import Mathlib.Data.Nat.Init
import Mathlib.Order.Nat
/-!
Properties of `config.Load` for several stage files (Model/Load).
-/
namespace Finch

/-! ### Memory -/

def Heap.setM (h : Heap) (j : Nat) (m : TMap Text) : Heap := { h with ms := h.ms.set j m }

theorem m_setM_same {h : Heap} {j : Nat} (hj : j < h.ms.length) (m : TMap Text) :
    (h.setM j m).m (some j) = m := by
  simp [Heap.m, Heap.setM, hj]

theorem m_setM_other {h : Heap} {j : Nat} (m : TMap Text) {i : Option Nat} (hi : i ≠ some j) :
    (h.setM j m).m i = h.m i := by
  cases i with
  | none => rfl
  | some i =>
    have : j ≠ i := fun e => hi (by rw [e])
    simp [Heap.m, Heap.setM, this]

theorem setM_setM (h : Heap) (j : Nat) (m m' : TMap Text) : (h.setM j m).setM j m' = h.setM j m' := by
  simp [Heap.setM]

theorem setM_self (h : Heap) (j : Nat) : h.setM j (h.m (some j)) = h := by
  cases h with
  | mk ms rs =>
    simp only [Heap.setM, Heap.m, Heap.mk.injEq, and_true]
    apply List.ext_getElem?
    intro i
    by_cases hj : j < ms.length
    · by_cases hi : j = i
      · subst hi; simp [hj]
      · simp [hi]
    · rw [List.set_eq_of_length_le (by omega)]

theorem putM_eq (h : Heap) (j : Nat) (k v : Text) :
    h.putM (some j) k v = .ok (h.setM j ((h.m (some j)).set k v)) := rfl

theorem putAll_eq {j : Nat} : ∀ (l : TMap Text) (h : Heap), j < h.ms.length →
    h.putAll (some j) l = .ok (h.setM j (l.foldl (fun m kv => m.set kv.1 kv.2) (h.m (some j))))
  | [], h, _ => by simp [Heap.putAll, setM_self]
  | (k, v) :: rest, h, hj => by
    show Heap.putAll (h.setM j ((h.m (some j)).set k v)) _ rest = _
    rw [putAll_eq rest _ (by simpa [Heap.setM] using hj), m_setM_same hj, setM_setM]
    rfl

theorem addParams_eq {j : Nat} : ∀ (l : TMap Text) (h : Heap), j < h.ms.length →
    h.addParams (some j) l = .ok (h.setM j (addParams (h.m (some j)) l))
  | [], h, _ => by simp [Heap.addParams, addParams, setM_self]
  | (k, v) :: rest, h, hj => by
    by_cases hk : ((h.m (some j)).get? k).isSome
    · simp only [Heap.addParams, addParams, hk, if_true]
      exact addParams_eq rest h hj
    · simp only [Heap.addParams, addParams, if_neg hk]
      show Heap.addParams (h.setM j ((h.m (some j)).set k v)) _ rest = _
      rw [addParams_eq rest _ (by simpa [Heap.setM] using hj), m_setM_same hj, setM_setM]

theorem varsParams_eq (e : VarEnv) {j : Nat} : ∀ (ks : List Text) (h : Heap), j < h.ms.length →
    h.varsParams e (some j) ks =
      match paramsLoop e (h.m (some j)) ks with
      | none => .err
      | some m => .ok (h.setM j m)
  | [], h, _ => by simp [Heap.varsParams, paramsLoop, setM_self]
  | k :: ks, h, hj => by
    unfold Heap.varsParams paramsLoop
    cases hv : VarEnv.vars { e with params := h.m (some j) } true ((TMap.get? (h.m (some j)) k).getD []) with
    | none => rfl
    | some v =>
      simp only []
      show (h.putM (some j) k v).bind _ = _
      rw [putM_eq]
      show Heap.varsParams e _ _ ks = _
      rw [varsParams_eq e ks _ (by simpa [Heap.setM] using hj), m_setM_same hj]
      simp only [setM_setM]

/-! ### Maps with distinct keys -/

/-- The keys of a Go map are distinct. -/
def TMap.Distinct {α : Type} (m : TMap α) : Prop := (m.map (·.1)).Nodup

theorem set_append {α : Type} (k : Text) (v : α) : ∀ (d r : TMap α), k ∉ d.map (·.1) →
    TMap.set (d ++ r) k v = d ++ TMap.set r k v
  | [], r, _ => rfl
  | (x, w) :: d, r, h => by
    simp only [List.map_cons, List.mem_cons, not_or] at h
    simp only [List.cons_append, TMap.set, if_neg (Ne.symm h.1)]
    rw [set_append k v d r h.2]

theorem set_new {α : Type} (k : Text) (v : α) (d : TMap α) (h : k ∉ d.map (·.1)) :
    TMap.set d k v = d ++ [(k, v)] := by
  have := set_append k v d [] h
  simpa [TMap.set] using this

theorem get_append {α : Type} (k : Text) (v : α) : ∀ (d r : TMap α), k ∉ d.map (·.1) →
    TMap.get? (d ++ (k, v) :: r) k = some v
  | [], r, _ => by simp [TMap.get?]
  | (x, w) :: d, r, h => by
    simp only [List.map_cons, List.mem_cons, not_or] at h
    have ih := get_append k v d r h.2
    simp only [TMap.get?] at ih ⊢
    simp only [List.cons_append, List.lookup, beq_eq_false_iff_ne.mpr h.1]
    exact ih

theorem foldl_set_new : ∀ (l d : TMap Text), TMap.Distinct (d ++ l) →
    l.foldl (fun m kv => TMap.set m kv.1 kv.2) d = d ++ l
  | [], d, _ => by simp
  | (k, v) :: l, d, h => by
    have hk : k ∉ d.map (·.1) := by
      intro hm
      have := List.nodup_append.1 (by simpa [TMap.Distinct] using h)
      exact this.2.2 k hm k (by simp) rfl
    simp only [List.foldl_cons]
    rw [set_new k v d hk, foldl_set_new l _ (by simpa [TMap.Distinct] using h)]
    simp

/-- One reporter: the loop over its options replaces each value. -/
theorem varsMap_eq (e : VarEnv) {j : Nat} : ∀ (l d : TMap Text) (h : Heap), j < h.ms.length →
    h.m (some j) = d ++ l → TMap.Distinct (d ++ l) →
    h.varsMap e (some j) (l.map (·.1)) =
      match l.mapVals (e.vars false) with
      | none => .err
      | some l' => .ok (h.setM j (d ++ l'))
  | [], d, h, hj, hm, _ => by
    have := setM_self h j
    rw [hm] at this
    simp [Heap.varsMap, TMap.mapVals] at this ⊢
    exact this.symm
  | (k, v) :: l, d, h, hj, hm, hd => by
    have hk : k ∉ d.map (·.1) := by
      intro hc
      have := List.nodup_append.1 (by simpa [TMap.Distinct] using hd)
      exact this.2.2 k hc k (by simp) rfl
    simp only [List.map_cons, Heap.varsMap]
    rw [hm, get_append k v d l hk]
    simp only [Option.getD_some, TMap.mapVals]
    cases hv : e.vars false v with
    | none => rfl
    | some v' =>
      simp only []
      show (h.putM (some j) k v').bind _ = _
      rw [putM_eq, hm, set_append k v' d _ hk]
      show Heap.varsMap e _ _ _ = _
      have hset : TMap.set ((k, v) :: l) k v' = (k, v') :: l := by simp [TMap.set]
      rw [hset]
      rw [varsMap_eq e l (d ++ [(k, v')]) _ (by simpa [Heap.setM] using hj)
        (by rw [m_setM_same hj]; simp) (by simpa [TMap.Distinct] using hd)]
      cases hr : TMap.mapVals (e.vars false) l with
      | none => rfl
      | some l' => simp [setM_setM]

/-! ### What is not touched -/

/-- Everything of `a` is still there in `h`. -/
structure MExt (a h : Heap) : Prop where
  lm : a.ms.length ≤ h.ms.length
  lr : a.rs.length ≤ h.rs.length
  m : ∀ j, j < a.ms.length → h.m (some j) = a.m (some j)
  r : ∀ q, q < a.rs.length → h.r (some q) = a.r (some q)

theorem MExt.refl (a : Heap) : MExt a a := ⟨le_refl _, le_refl _, fun _ _ => rfl, fun _ _ => rfl⟩

theorem MExt.trans {a b c : Heap} (h1 : MExt a b) (h2 : MExt b c) : MExt a c :=
  ⟨h1.lm.trans h2.lm, h1.lr.trans h2.lr,
    fun j hj => (h2.m j (hj.trans_le h1.lm)).trans (h1.m j hj),
    fun q hq => (h2.r q (hq.trans_le h1.lr)).trans (h1.r q hq)⟩

theorem MExt.setM {a h : Heap} (hx : MExt a h) {j : Nat} (hj : a.ms.length ≤ j) (m : TMap Text) :
    MExt a (h.setM j m) := by
  refine ⟨by simpa [Heap.setM] using hx.lm, hx.lr, fun i hi => ?_, fun q hq => hx.r q hq⟩
  rw [m_setM_other m (by simp; omega)]
  exact hx.m i hi

/-- References of `params` and `report` that exist in `h`. -/
structure RefsIn (h : Heap) (pp rr : Option Nat) : Prop where
  p : ∀ j, pp = some j → j < h.ms.length
  r : ∀ q, rr = some q → q < h.rs.length
  inner : ∀ x ∈ h.r rr, ∀ j, x.2 = some j → j < h.ms.length

theorem MExt.m' {a h : Heap} (hx : MExt a h) {i : Option Nat} (hi : ∀ j, i = some j → j < a.ms.length) :
    h.m i = a.m i := by
  cases i with
  | none => rfl
  | some j => exact hx.m j (hi j rfl)

theorem MExt.r' {a h : Heap} (hx : MExt a h) {i : Option Nat} (hi : ∀ j, i = some j → j < a.rs.length) :
    h.r i = a.r i := by
  cases i with
  | none => rfl
  | some j => exact hx.r j (hi j rfl)

theorem MExt.report {a h : Heap} (hx : MExt a h) {p r : Option Nat} (hr : RefsIn a p r) :
    h.report r = a.report r := by
  unfold Heap.report
  rw [hx.r' hr.r]
  apply List.map_congr_left
  intro x hxm
  show (x.1, h.m x.2) = (x.1, a.m x.2)
  rw [hx.m' (hr.inner x hxm)]

theorem RefsIn.mono {a h : Heap} {p r : Option Nat} (hr : RefsIn a p r) (hx : MExt a h) : RefsIn h p r :=
  ⟨fun j e => (hr.p j e).trans_le hx.lm, fun q e => (hr.r q e).trans_le hx.lr,
    fun x hxm j e => by
      rw [hx.r' hr.r] at hxm
      exact (hr.inner x hxm j e).trans_le hx.lm⟩

theorem HStage.read_ext {a h : Heap} (hx : MExt a h) {s : HStage} (hs : RefsIn a s.params s.report) :
    s.read h = s.read a := by
  unfold HStage.read
  rw [hx.m' hs.p, hx.report hs]

theorem HBase.read_ext {a h : Heap} (hx : MExt a h) {b : HBase} (hb : RefsIn a b.params b.report) :
    b.read h = b.read a := by
  unfold HBase.read
  rw [hx.m' hb.p, hx.report hb]

/-- The maps of a config are its own: they are newer than `a`, and no two of them are the same. -/
structure Own (a h : Heap) (pp rr : Option Nat) : Prop where
  refs : RefsIn h pp rr
  p : ∀ j, pp = some j → a.ms.length ≤ j
  r : ∀ q, rr = some q → a.rs.length ≤ q
  inner : ∀ x ∈ h.r rr, ∀ j, x.2 = some j → a.ms.length ≤ j
  diff : (pp.toList ++ (h.r rr).filterMap (·.2)).Nodup

/-- Distinct keys in all maps of a config. -/
structure MapsOk (ps : TMap Text) (rep : TMap (TMap Text)) : Prop where
  params : TMap.Distinct ps
  report : TMap.Distinct rep
  inner : ∀ x ∈ rep, TMap.Distinct x.2

/-! ### Decoding -/

theorem r_append (h : Heap) (ms : List (TMap Text)) (i : Option Nat) : ({ h with ms := ms } : Heap).r i = h.r i := by
  cases i <;> rfl

theorem decodeM_spec (h : Heap) (m : TMap Text) : ∃ i h', h.decodeM m = (i, h') ∧ MExt h h' ∧ h'.rs = h.rs ∧
    h'.m i = m ∧ (∀ j, i = some j → h.ms.length ≤ j ∧ j < h'.ms.length) := by
  unfold Heap.decodeM
  cases m with
  | nil => exact ⟨none, h, rfl, MExt.refl h, rfl, rfl, by simp⟩
  | cons x m =>
    refine ⟨_, _, rfl, ⟨by simp, le_refl _, ?_, ?_⟩, rfl, ?_, ?_⟩
    · intro j hj
      simp [Heap.m, List.getElem?_append_left hj]
    · intro q _
      rfl
    · simp [Heap.m]
    · intro j hj
      cases hj
      simp

theorem decodeInner_spec : ∀ (r : TMap (TMap Text)) (h : Heap), ∃ o h', h.decodeInner r = (o, h') ∧ MExt h h' ∧
    h'.rs = h.rs ∧ o.map (fun p => (p.1, h'.m p.2)) = r ∧
    (∀ x ∈ o, ∀ j, x.2 = some j → h.ms.length ≤ j ∧ j < h'.ms.length) ∧ (o.filterMap (·.2)).Nodup
  | [], h => ⟨[], h, rfl, MExt.refl h, rfl, rfl, by simp, by simp⟩
  | (k, m) :: rest, h => by
    obtain ⟨i, h1, e1, x1, s1, m1, b1⟩ := decodeM_spec h m
    obtain ⟨o, h2, e2, x2, s2, m2, b2, n2⟩ := decodeInner_spec rest h1
    refine ⟨(k, i) :: o, h2, by simp only [Heap.decodeInner, e1, e2], x1.trans x2, by rw [s2, s1], ?_, ?_, ?_⟩
    · simp only [List.map_cons, m2]
      rw [x2.m' (fun j hj => (b1 j hj).2), m1]
    · intro x hx j hj
      rcases List.mem_cons.1 hx with rfl | hx
      · exact ⟨(b1 j hj).1, (b1 j hj).2.trans_le x2.lm⟩
      · exact ⟨x1.lm.trans (b2 x hx j hj).1, (b2 x hx j hj).2⟩
    · cases i with
      | none => simpa using n2
      | some j =>
        simp only [List.filterMap_cons, List.nodup_cons]
        refine ⟨fun hm => ?_, n2⟩
        obtain ⟨x, hx, he⟩ := List.mem_filterMap.1 hm
        have := (b2 x hx j he).1
        have := (b1 j rfl).2
        omega

theorem decodeR_spec (h : Heap) (r : TMap (TMap Text)) : ∃ i h', h.decodeR r = (i, h') ∧ MExt h h' ∧
    h'.report i = r ∧ (∀ q, i = some q → h.rs.length ≤ q ∧ q < h'.rs.length) ∧
    (∀ x ∈ h'.r i, ∀ j, x.2 = some j → h.ms.length ≤ j ∧ j < h'.ms.length) ∧
    ((h'.r i).filterMap (·.2)).Nodup := by
  unfold Heap.decodeR
  cases r with
  | nil => exact ⟨none, h, rfl, MExt.refl h, rfl, by simp, by simp [Heap.r], by simp [Heap.r]⟩
  | cons x r =>
    obtain ⟨o, h1, e1, x1, s1, m1, b1, n1⟩ := decodeInner_spec (x :: r) h
    have hr : ({ h1 with rs := h1.rs ++ [o] } : Heap).r (some h1.rs.length) = o := by simp [Heap.r]
    have hm : ∀ i, ({ h1 with rs := h1.rs ++ [o] } : Heap).m i = h1.m i := fun i => by cases i <;> rfl
    refine ⟨some h1.rs.length, { h1 with rs := h1.rs ++ [o] },
      by simp only [List.isEmpty_cons, Bool.false_eq_true, if_false, e1], ?_, ?_, ?_, ?_, ?_⟩
    · refine x1.trans ⟨le_refl _, by simp, fun j _ => hm _, ?_⟩
      intro q hq
      simp [Heap.r, List.getElem?_append_left hq]
    · unfold Heap.report
      rw [hr]
      simpa [hm] using m1
    · intro q hq
      cases hq
      simp [s1]
    · rw [hr]; exact b1
    · rw [hr]; exact n1

theorem decode_own (h : Heap) (params : TMap Text) (report : TMap (TMap Text)) : ∃ p h1 r h2,
    h.decodeM params = (p, h1) ∧ h1.decodeR report = (r, h2) ∧ MExt h h2 ∧ Own h h2 p r ∧
    h2.m p = params ∧ h2.report r = report := by
  obtain ⟨p, h1, e1, x1, s1, m1, b1⟩ := decodeM_spec h params
  obtain ⟨r, h2, e2, x2, m2, b2, c2, n2⟩ := decodeR_spec h1 report
  have hrr : h.rs.length = h1.rs.length := by rw [s1]
  refine ⟨p, h1, r, h2, e1, e2, x1.trans x2, ⟨⟨?_, ?_, ?_⟩, ?_, ?_, ?_, ?_⟩, ?_, m2⟩
  · exact fun j hj => (b1 j hj).2.trans_le x2.lm
  · exact fun q hq => (b2 q hq).2
  · exact fun x hx j hj => (c2 x hx j hj).2
  · exact fun j hj => (b1 j hj).1
  · exact fun q hq => hrr ▸ (b2 q hq).1
  · exact fun x hx j hj => x1.lm.trans (c2 x hx j hj).1
  · refine List.nodup_append.2 ⟨by cases p <;> simp, n2, ?_⟩
    intro a ha b hb hab
    subst hab
    obtain ⟨x, hx, he⟩ := List.mem_filterMap.1 hb
    have := (c2 x hx a he).1
    have := (b1 a (by simpa using ha)).2
    omega
  · rw [x2.m' (fun j hj => (b1 j hj).2), m1]

/-! ### Command line params -/

theorem setM_own {a h : Heap} {j : Nat} {r : Option Nat} (ho : Own a h (some j) r) (m : TMap Text) :
    Own a (h.setM j m) (some j) r ∧ (h.setM j m).report r = h.report r := by
  have hr : (h.setM j m).r r = h.r r := by cases r <;> rfl
  have hl : (h.setM j m).ms.length = h.ms.length := by simp [Heap.setM]
  refine ⟨⟨⟨?_, ?_, ?_⟩, ho.p, ho.r, ?_, ?_⟩, ?_⟩
  · rw [hl]; exact ho.refs.p
  · exact ho.refs.r
  · rw [hr, hl]; exact ho.refs.inner
  · rw [hr]; exact ho.inner
  · rw [hr]; exact ho.diff
  · unfold Heap.report
    rw [hr]
    apply List.map_congr_left
    intro x hx
    have : x.2 ≠ some j := by
      intro e
      have hd := List.nodup_append.1 ho.diff
      exact hd.2.2 j (by simp) j (List.mem_filterMap.2 ⟨x, hx, e⟩) rfl
    show (x.1, (h.setM j m).m x.2) = (x.1, h.m x.2)
    rw [m_setM_other m this]

theorem withParams_spec {a h : Heap} {b : HBase} (hx : MExt a h) (ho : Own a h b.params b.report)
    (params : TMap Text) : ∃ h', b.withParams h params = .ok (b, h') ∧ MExt a h' ∧ Own a h' b.params b.report ∧
      b.read h' = (b.read h).withParams params := by
  unfold HBase.withParams
  by_cases he : (h.m b.params).isEmpty
  · refine ⟨h, by rw [if_pos he], hx, ho, ?_⟩
    simp [BaseCfg.withParams, HBase.read, he]
  · cases hp : b.params with
    | none => simp [hp, Heap.m] at he
    | some j =>
      rw [hp] at he ho
      have hj := ho.refs.p j rfl
      refine ⟨h.setM j (params.foldl (fun m kv => m.set kv.1 kv.2) (h.m (some j))), ?_,
        hx.setM (ho.p j rfl) _, (setM_own ho _).1, ?_⟩
      · rw [if_neg he]
        show (h.putAll (some j) params).bind _ = _
        rw [putAll_eq params h hj]
        rfl
      · simp only [BaseCfg.withParams, HBase.read, hp, he, Bool.false_eq_true, if_false]
        rw [(setM_own ho _).2, m_setM_same hj]

/-! ### `With` -/

/-- The references of the copies. -/
def enumRefs (n : Nat) : TMap (Option Nat) → TMap (Option Nat)
  | [] => []
  | (k, _) :: rest => (k, some n) :: enumRefs (n + 1) rest

theorem enumRefs_keys : ∀ (l : TMap (Option Nat)) (n : Nat), (enumRefs n l).map (·.1) = l.map (·.1)
  | [], _ => rfl
  | (k, i) :: rest, n => by simp [enumRefs, enumRefs_keys rest]

theorem enumRefs_mem : ∀ (l : TMap (Option Nat)) (n : Nat), ∀ x ∈ enumRefs n l, ∀ j, x.2 = some j →
    n ≤ j ∧ j < n + l.length
  | [], _, x, hx, _, _ => by simp [enumRefs] at hx
  | (k, i) :: rest, n, x, hx, j, hj => by
    rcases List.mem_cons.1 hx with rfl | hx
    · cases hj; simp
    · have := enumRefs_mem rest (n + 1) x hx j hj
      simp only [List.length_cons]
      omega

theorem enumRefs_nodup : ∀ (l : TMap (Option Nat)) (n : Nat), ((enumRefs n l).filterMap (·.2)).Nodup
  | [], _ => by simp [enumRefs]
  | (k, i) :: rest, n => by
    simp only [enumRefs, List.filterMap_cons, List.nodup_cons]
    refine ⟨fun hm => ?_, enumRefs_nodup rest (n + 1)⟩
    obtain ⟨x, hx, he⟩ := List.mem_filterMap.1 hm
    have := (enumRefs_mem rest (n + 1) x hx n he).1
    omega

theorem copyReport_eq {q : Nat} : ∀ (l d : TMap (Option Nat)) (h : Heap), q < h.rs.length →
    h.r (some q) = d → TMap.Distinct (d ++ l) → (∀ x ∈ l, ∀ j, x.2 = some j → j < h.ms.length) →
    (∀ x ∈ l, TMap.Distinct (h.m x.2)) →
    h.copyReport (some q) l = .ok
      { ms := h.ms ++ l.map (fun x => h.m x.2), rs := h.rs.set q (d ++ enumRefs h.ms.length l) }
  | [], d, h, hq, hd, _, _, _ => by
    subst hd
    simp only [Heap.copyReport, List.map_nil, List.append_nil, enumRefs, Out.ok.injEq]
    cases h with
    | mk ms rs =>
      simp only [Heap.mk.injEq, true_and]
      simp only [] at hq
      simp [Heap.r, List.getElem?_eq_getElem hq]
  | (k, i) :: rest, d, h, hq, hd, hnd, hv, hk => by
    have hkd : k ∉ d.map (·.1) := by
      intro hc
      have := List.nodup_append.1 (by simpa [TMap.Distinct] using hnd)
      exact this.2.2 k hc k (by simp) rfl
    -- after `newM` and `putR`
    let h1 : Heap := { ms := h.ms ++ [[]], rs := h.rs.set q (d ++ [(k, some h.ms.length)]) }
    have hm : ∀ y, (∀ j, y = some j → j < h.ms.length) → h1.m y = h.m y := by
      intro y hy
      cases y with
      | none => rfl
      | some j => simp [h1, Heap.m, List.getElem?_append_left (hy j rfl)]
    have hlen : h.ms.length < h1.ms.length := by simp [h1]
    have hi : h1.m i = h.m i := hm i (hv (k, i) (by simp))
    have hnew : h1.m (some h.ms.length) = [] := by simp [h1, Heap.m]
    have e1 : h.copyReport (some q) ((k, i) :: rest) =
        (h1.putAll (some h.ms.length) (h1.m i)).bind fun h => h.copyReport (some q) rest := by
      rw [Heap.copyReport]
      show (Heap.putR { h with ms := h.ms ++ [[]] } (some q) k (some h.ms.length)).bind _ = _
      have : Heap.putR { h with ms := h.ms ++ [[]] } (some q) k (some h.ms.length) = .ok h1 := by
        unfold Heap.putR
        simp only [h1]
        have : ({ h with ms := h.ms ++ [[]] } : Heap).r (some q) = d := hd
        rw [this, set_new k _ d hkd]
      rw [this]
      rfl
    rw [e1, putAll_eq _ _ hlen, hnew, hi, foldl_set_new _ _ (by simpa using hk (k, i) (by simp))]
    have h2e : h1.setM h.ms.length ([] ++ h.m i) =
        { ms := h.ms ++ [h.m i], rs := h.rs.set q (d ++ [(k, some h.ms.length)]) } := by
      simp [Heap.setM, h1]
    rw [h2e]
    show Heap.copyReport _ _ rest = _
    have hm2 : ∀ x ∈ rest, ({ ms := h.ms ++ [h.m i], rs := h.rs.set q (d ++ [(k, some h.ms.length)]) } : Heap).m x.2 = h.m x.2 := by
      intro x hx
      have := hv x (by simp [hx])
      cases hx2 : x.2 with
      | none => rfl
      | some j =>
        have := this j hx2
        simp [Heap.m, List.getElem?_append_left this]
    rw [copyReport_eq rest (d ++ [(k, some h.ms.length)]) _ (by simpa using hq)
      (by simp [Heap.r, hq]) (by simpa [TMap.Distinct] using hnd)
      (fun x hx j hj => by
        have := hv x (by simp [hx]) j hj
        simp; omega)
      (fun x hx => by rw [hm2 x hx]; exact hk x (by simp [hx]))]
    simp only [Out.ok.injEq, Heap.mk.injEq, List.set_set, List.append_assoc, List.map_cons, List.length_append,
      List.length_cons, List.length_nil, Nat.zero_add, enumRefs, List.cons_append, List.nil_append, and_true]
    rw [List.map_congr_left hm2]

theorem map_enumRefs (X : List (TMap Text)) (rs : List (TMap (Option Nat))) (f : Option Nat → TMap Text) :
    ∀ (l : TMap (Option Nat)) (pre : List (TMap Text)), X = pre ++ l.map (fun x => f x.2) →
    (enumRefs pre.length l).map (fun p => (p.1, (⟨X, rs⟩ : Heap).m p.2)) = l.map fun p => (p.1, f p.2)
  | [], _, _ => rfl
  | (k, i) :: rest, pre, hX => by
    have ih := map_enumRefs X rs f rest (pre ++ [f i]) (by simp [hX])
    simp only [List.length_append, List.length_cons, List.length_nil, Nat.zero_add] at ih
    simp only [enumRefs, List.map_cons, ih]
    simp [Heap.m, hX]

theorem MExt.newM {a h : Heap} (hx : MExt a h) : MExt a h.newM.2 := by
  refine hx.trans ⟨by simp [Heap.newM], le_refl _, ?_, fun q _ => rfl⟩
  intro j hj
  simp [Heap.m, Heap.newM, List.getElem?_append_left hj]

/-- The params part of `With`. -/
theorem withBase_params {a h : Heap} {s : HStage} {b : HBase} (hx : MExt a h) (ho : Own a h s.params s.report)
    (hb : RefsIn a b.params b.report) : ∃ s' h',
      s.addBase h b = .ok (s', h') ∧ MExt a h' ∧ Own a h' s'.params s'.report ∧
      h'.m s'.params = addParams (h.m s.params) (a.m b.params) ∧ h'.report s'.report = h.report s.report ∧
      s'.val = s.val ∧ s'.n = s.n := by
  have hbm : h.m b.params = a.m b.params := hx.m' hb.p
  unfold HStage.addBase
  by_cases he : (h.m b.params).isEmpty
  · refine ⟨s, h, by rw [if_pos he], hx, ho, ?_, rfl, rfl, rfl⟩
    rw [← hbm, List.isEmpty_iff.1 he]
    rfl
  · rw [if_neg he]
    cases hp : s.params with
    | none =>
      have hx1 := hx.newM
      have hlt : h.ms.length < h.newM.2.ms.length := by simp [Heap.newM]
      have hr1 : h.newM.2.r s.report = h.r s.report := by cases s.report <;> rfl
      have ho1 : Own a h.newM.2 (some h.ms.length) s.report := by
        refine ⟨⟨?_, ho.refs.r, ?_⟩, ?_, ho.r, ?_, ?_⟩
        · rintro j ⟨⟩; exact hlt
        · rw [hr1]
          intro x hxm j hj
          exact (ho.refs.inner x hxm j hj).trans hlt
        · rintro j ⟨⟩; exact hx.lm
        · rw [hr1]; exact ho.inner
        · rw [hr1]
          have hd := (List.nodup_append.1 ho.diff).2.1
          simp only [Option.toList_some, List.singleton_append, List.nodup_cons]
          refine ⟨fun hm => ?_, hd⟩
          obtain ⟨x, hxm, hj⟩ := List.mem_filterMap.1 hm
          exact absurd (ho.refs.inner x hxm _ hj) (lt_irrefl _)
      have hnew : h.newM.2.m (some h.ms.length) = [] := by simp [Heap.newM, Heap.m]
      have hrep : h.newM.2.report s.report = h.report s.report := by
        unfold Heap.report
        rw [hr1]
        apply List.map_congr_left
        intro x hxm
        have := ho.refs.inner x hxm
        show (x.1, h.newM.2.m x.2) = (x.1, h.m x.2)
        rw [((MExt.refl h).newM).m' this]
      refine ⟨{ s with params := some h.ms.length },
        h.newM.2.setM h.ms.length (addParams (h.newM.2.m (some h.ms.length)) (h.newM.2.m b.params)), ?_, hx1.setM hx.lm _, (setM_own ho1 _).1, ?_, ?_, rfl, rfl⟩
      · simp only [if_true]
        show (h.newM.2.addParams (some h.ms.length) (h.newM.2.m b.params)).bind _ = _
        rw [addParams_eq _ _ hlt]
        rfl
      · show Heap.m _ (some h.ms.length) = _
        rw [m_setM_same hlt, hnew, hx1.m' hb.p]
        rfl
      · show Heap.report _ s.report = _
        rw [(setM_own ho1 _).2, hrep]
    | some j =>
      rw [hp] at ho
      have hj := ho.refs.p j rfl
      refine ⟨{ s with params := some j }, h.setM j (addParams (h.m (some j)) (h.m b.params)), ?_,
        hx.setM (ho.p j rfl) _, (setM_own ho _).1, ?_, ?_, rfl, rfl⟩
      · simp only [reduceCtorEq, if_false]
        show (h.addParams (some j) (h.m b.params)).bind _ = _
        rw [addParams_eq _ _ hj]
        rfl
      · show Heap.m _ (some j) = _
        rw [m_setM_same hj, hbm]
      · show Heap.report _ s.report = _
        rw [(setM_own ho _).2]

theorem withBase_spec {a h : Heap} {s : HStage} {b : HBase} (hx : MExt a h) (ho : Own a h s.params s.report)
    (hb : RefsIn a b.params b.report) (hm : MapsOk (b.read a).params (b.read a).stats.report) : ∃ s' h',
      s.withBase h b = .ok (s', h') ∧ MExt a h' ∧ Own a h' s'.params s'.report ∧
      s'.read h' = (s.read h).withBase (b.read a) ∧ s'.n = s.n := by
  obtain ⟨s1, h1, e1, hx1, ho1, m1, r1, v1, n1⟩ := withBase_params hx ho hb
  unfold HStage.withBase
  show ∃ s' h', Out.bind (s.addBase h b) _ = _ ∧ _
  rw [e1]
  have hbr : h1.r b.report = a.r b.report := hx1.r' hb.r
  have hemp : (a.report b.report).isEmpty = (a.r b.report).isEmpty := by
    simp [Heap.report]
  by_cases he : (h1.r b.report).isEmpty
  · refine ⟨s1.addSettings b, h1, by simp only [Out.bind, if_pos he], hx1, ho1, ?_, n1⟩
    rw [hbr] at he
    simp only [HStage.addSettings, HStage.read, HBase.read, StageConf.withBase, v1, m1, r1, hemp, he, if_true]
  · let o := h1.rs.length
    let h2 : Heap := { h1 with rs := h1.rs ++ [[]] }
    have hq : o < h2.rs.length := by simp [h2, o]
    have hm2 : ∀ i, h2.m i = h1.m i := fun i => by cases i <;> rfl
    have hr2 : ∀ i, (∀ q, i = some q → q < h1.rs.length) → h2.r i = h1.r i := by
      intro i hi
      cases i with
      | none => rfl
      | some q => simp [h2, Heap.r, List.getElem?_append_left (hi q rfl)]
    have hbl : ∀ q, b.report = some q → q < h1.rs.length := fun q hq => (hb.r q hq).trans_le hx1.lr
    have hl : h2.r b.report = a.r b.report := (hr2 _ hbl).trans hbr
    have hx2 : MExt a h2 := by
      refine ⟨hx1.lm, by simpa [h2] using Nat.le_succ_of_le hx1.lr, fun j hj => ?_, fun q hq => ?_⟩
      · rw [hm2]; exact hx1.m j hj
      · rw [hr2 _ (by rintro _ ⟨⟩; exact hq.trans_le hx1.lr)]; exact hx1.r q hq
    have hcell : ∀ x ∈ a.r b.report, h2.m x.2 = a.m x.2 := fun x hxm => hx2.m' (hb.inner x hxm)
    have e2 : h2.copyReport (some o) (h2.r b.report) = .ok
        { ms := h2.ms ++ (a.r b.report).map (fun x => a.m x.2)
          rs := h2.rs.set o (enumRefs h2.ms.length (a.r b.report)) } := by
      rw [hl, copyReport_eq (a.r b.report) [] h2 hq (by simp [h2, o, Heap.r]) ?_ ?_ ?_]
      · rw [List.map_congr_left hcell]
        simp
      · simpa [TMap.Distinct, HBase.read, Heap.report, Function.comp_def] using hm.report
      · exact fun x hxm j hj => (hb.inner x hxm j hj).trans_le hx2.lm
      · intro x hxm
        rw [hcell x hxm]
        exact hm.inner (x.1, a.m x.2) (List.mem_map.2 ⟨x, hxm, rfl⟩)
    let h3 : Heap := { ms := h2.ms ++ (a.r b.report).map (fun x => a.m x.2)
                       rs := h2.rs.set o (enumRefs h2.ms.length (a.r b.report)) }
    have ho3 : h3.r (some o) = enumRefs h2.ms.length (a.r b.report) := by
      simp [h3, Heap.r, hq]
    have hx13 : ∀ i, (∀ j, i = some j → j < h1.ms.length) → h3.m i = h1.m i := by
      intro i hi
      cases i with
      | none => rfl
      | some j =>
        have : j < h2.ms.length := hi j rfl
        simp [h3, h2, Heap.m, List.getElem?_append_left (hi j rfl)]
    have hlen3 : h3.ms.length = h1.ms.length + (a.r b.report).length := by simp [h3, h2]
    have hx3 : MExt a h3 := by
      refine ⟨?_, ?_, fun j hj => ?_, fun q hq' => ?_⟩
      · rw [hlen3]; exact hx1.lm.trans (Nat.le_add_right _ _)
      · simpa [h3] using hx2.lr
      · rw [hx13 _ (by rintro _ ⟨⟩; exact hj.trans_le hx1.lm)]; exact hx1.m j hj
      · have : o ≠ q := by have := hx1.lr; simp only [o]; omega
        have h32 : h3.r (some q) = h2.r (some q) := by simp [h3, Heap.r, this]
        rw [h32]; exact hx2.r q hq'
    refine ⟨{ s1.addSettings b with report := some o }, h3, ?_, hx3, ?_, ?_, ?_⟩
    · simp only [Out.bind, if_neg he]
      show Out.bind (h2.copyReport (some o) (h2.r b.report)) _ = _
      rw [e2]
      rfl
    · refine ⟨⟨?_, ?_, ?_⟩, ho1.p, ?_, ?_, ?_⟩
      · intro j hj
        rw [hlen3]
        exact (ho1.refs.p j hj).trans_le (Nat.le_add_right _ _)
      · rintro q ⟨⟩
        simpa [h3] using hq
      · intro x hxm j hj
        rw [ho3] at hxm
        have := enumRefs_mem _ _ x hxm j hj
        rw [hlen3]; exact this.2
      · rintro q ⟨⟩
        exact hx1.lr
      · intro x hxm j hj
        rw [ho3] at hxm
        have := enumRefs_mem _ _ x hxm j hj
        exact hx1.lm.trans this.1
      · rw [ho3]
        show (s1.params.toList ++ _).Nodup
        refine List.nodup_append.2 ⟨by cases s1.params <;> simp, enumRefs_nodup _ _, ?_⟩
        intro j hj j' hj' he
        subst he
        obtain ⟨x, hxm, hj2⟩ := List.mem_filterMap.1 hj'
        have h1' := (enumRefs_mem _ _ x hxm j hj2).1
        have h2' := ho1.refs.p j (by simpa using hj)
        exact absurd h1' (not_le.2 h2')
    · have hrep : h3.report (some o) = a.report b.report := by
        unfold Heap.report
        rw [ho3]
        exact map_enumRefs h3.ms h3.rs a.m (a.r b.report) h2.ms rfl
      rw [hbr] at he
      simp only [HStage.addSettings, HStage.read, HBase.read, StageConf.withBase, v1, hemp, he, hrep,
        hx13 s1.params ho1.refs.p, m1]
      simp
    · exact n1

/-! ### `Vars` -/

/-- All reporters. -/
theorem varsReport_spec (e : VarEnv) : ∀ (l : TMap (Option Nat)) (h : Heap),
    (∀ x ∈ l, ∀ j, x.2 = some j → j < h.ms.length) → (l.filterMap (·.2)).Nodup →
    (∀ x ∈ l, TMap.Distinct (h.m x.2)) →
    match TMap.mapVals (TMap.mapVals (e.vars false)) (l.map fun p => (p.1, h.m p.2)) with
    | none => h.varsReport e l = .err
    | some r => ∃ h', h.varsReport e l = .ok h' ∧ h'.rs = h.rs ∧ h'.ms.length = h.ms.length ∧
        (∀ i, (∀ j, i = some j → j ∉ l.filterMap (·.2)) → h'.m i = h.m i) ∧
        (l.map fun p => (p.1, h'.m p.2)) = r
  | [], h, _, _, _ => by
    simp only [List.map_nil, TMap.mapVals]
    exact ⟨h, rfl, rfl, rfl, fun _ _ => rfl, trivial⟩
  | (k, none) :: rest, h, hv, hn, hd => by
    have ih := varsReport_spec e rest h (fun x hx => hv x (by simp [hx])) (by simpa using hn)
      (fun x hx => hd x (by simp [hx]))
    have e0 : h.varsReport e ((k, none) :: rest) = h.varsReport e rest := by
      rw [Heap.varsReport]; rfl
    have hnil : ∀ g : Heap, g.m none = [] := fun _ => rfl
    simp only [List.map_cons, hnil, TMap.mapVals, e0]
    cases hr : TMap.mapVals (TMap.mapVals (e.vars false)) (rest.map fun p => (p.1, h.m p.2)) with
    | none => rw [hr] at ih; simpa using ih
    | some r =>
      rw [hr] at ih
      obtain ⟨h', e1, e2, e3, e4, e5⟩ := ih
      refine ⟨h', e1, e2, e3, ?_, ?_⟩
      · intro i hi
        exact e4 i (by simpa using hi)
      · simp [e5]
  | (k, some j) :: rest, h, hv, hn, hd => by
    have hj := hv (k, some j) (by simp) j rfl
    have hdj := hd (k, some j) (by simp)
    simp only [List.filterMap_cons, List.nodup_cons] at hn
    have hne : ∀ x ∈ rest, x.2 ≠ some j := fun x hx he => hn.1 (List.mem_filterMap.2 ⟨x, hx, he⟩)
    have e0 : h.varsReport e ((k, some j) :: rest) =
        (h.varsMap e (some j) ((h.m (some j)).map (·.1))).bind fun h => h.varsReport e rest := by
      rw [Heap.varsReport]; rfl
    rw [e0, varsMap_eq e (h.m (some j)) [] h hj rfl hdj]
    simp only [List.map_cons, TMap.mapVals]
    cases hm : TMap.mapVals (e.vars false) (h.m (some j)) with
    | none => simp [Out.bind]
    | some m' =>
      simp only [List.nil_append, Out.bind]
      have hrest : (rest.map fun p => (p.1, (h.setM j m').m p.2)) = rest.map fun p => (p.1, h.m p.2) := by
        apply List.map_congr_left
        intro x hx
        show (x.1, (h.setM j m').m x.2) = (x.1, h.m x.2)
        rw [m_setM_other m' (hne x hx)]
      have ih := varsReport_spec e rest (h.setM j m')
        (fun x hx i hi => by simpa [Heap.setM] using hv x (by simp [hx]) i hi) hn.2
        (fun x hx => by rw [m_setM_other m' (hne x hx)]; exact hd x (by simp [hx]))
      rw [hrest] at ih
      cases hr : TMap.mapVals (TMap.mapVals (e.vars false)) (rest.map fun p => (p.1, h.m p.2)) with
      | none => rw [hr] at ih; simpa using ih
      | some r =>
        rw [hr] at ih
        obtain ⟨h', e1, e2, e3, e4, e5⟩ := ih
        refine ⟨h', e1, by rw [e2]; rfl, by rw [e3]; simp [Heap.setM], ?_, ?_⟩
        · intro i hi
          simp only [List.filterMap_cons, List.mem_cons, not_or] at hi
          rw [e4 i (fun j' hj' => (hi j' hj').2), m_setM_other m' (fun he => (hi j he).1 rfl)]
        · have : h'.m (some j) = m' := by
            rw [e4 (some j) (by rintro _ ⟨⟩; exact hn.1), m_setM_same hj]
          simp [e5, this]

theorem ofOption_bind {α β : Type} (o : Option α) (f : α → Out β) :
    (Out.ofOption o).bind f = match o with | none => .err | some a => f a := by
  cases o <;> rfl

theorem vars_spec {a h : Heap} {s : HStage} (e : VarEnv) (order : List Text) (hx : MExt a h)
    (ho : Own a h s.params s.report) (hd : ∀ x ∈ h.r s.report, TMap.Distinct (h.m x.2))
    (hn : s.params = none → order = []) :
    match (s.read h).vars e order with
    | none => s.vars e order h = .err
    | some c => ∃ s' h', s.vars e order h = .ok (s', h') ∧ MExt a h' ∧ Own a h' s'.params s'.report ∧
        s'.read h' = c ∧ s'.n = s.n ∧ h'.r s'.report = h.r s.report := by
  -- the params
  have hp : match paramsLoop e (h.m s.params) order with
      | none => h.varsParams e s.params order = .err
      | some m => ∃ h', h.varsParams e s.params order = .ok h' ∧ MExt a h' ∧ Own a h' s.params s.report ∧
          h'.m s.params = m ∧ h'.report s.report = h.report s.report ∧ h'.r s.report = h.r s.report := by
    cases hp : s.params with
    | none =>
      rw [hp] at ho
      rw [hn hp]
      exact ⟨h, rfl, hx, ho, rfl, rfl, rfl⟩
    | some j =>
      rw [hp] at ho
      rw [varsParams_eq e order h (ho.refs.p j rfl)]
      cases hl : paramsLoop e (h.m (some j)) order with
      | none => rfl
      | some m =>
        exact ⟨_, rfl, hx.setM (ho.p j rfl) _, (setM_own ho m).1, m_setM_same (ho.refs.p j rfl) m,
          (setM_own ho m).2, by cases s.report <;> rfl⟩
  unfold StageConf.vars HStage.vars
  cases hl : paramsLoop e (h.m s.params) order with
  | none =>
    rw [hl] at hp
    simp only [] at hp
    have : paramsLoop e (s.read h).params order = none := hl
    simp only [this, Option.bind_eq_bind, Option.bind_none]
    show Out.bind (h.varsParams e s.params order) _ = _
    rw [hp]; rfl
  | some m =>
    rw [hl] at hp
    obtain ⟨h1, e1, hx1, ho1, m1, r1, rr1⟩ := hp
    have hpl : paramsLoop e (s.read h).params order = some m := hl
    simp only [hpl, Option.bind_eq_bind, Option.bind_some]
    have hbind : ∀ (f : Heap → Out (HStage × Heap)), (h.varsParams e s.params order >>= f) = f h1 := by
      intro f
      show Out.bind _ f = _
      rw [e1]; rfl
    rw [hbind]
    simp only [m1]
    generalize { e with params := m } = e'
    have hdiff := List.nodup_append.1 ho1.diff
    have hdist : ∀ x ∈ h1.r s.report, TMap.Distinct (h1.m x.2) := by
      intro x hxm
      have hmem : (x.1, h1.m x.2) ∈ h1.report s.report := List.mem_map.2 ⟨x, hxm, rfl⟩
      rw [r1] at hmem
      obtain ⟨y, hy, he⟩ := List.mem_map.1 hmem
      have := hd y hy
      simp only [Prod.mk.injEq] at he
      rw [← he.2]; exact this
    have hrep := varsReport_spec e' (h1.r s.report) h1 ho1.refs.inner hdiff.2.1 hdist
    have hre : ((h1.r s.report).map fun p => (p.1, h1.m p.2)) = h.report s.report := r1
    rw [hre] at hrep
    have hb : ∀ {α β : Type} (o : Option α) (f : α → Out β), (Out.ofOption o >>= f) =
      match o with | none => .err | some a => f a := ofOption_bind
    simp only [hb, HStage.read]
    cases VarEnv.vars e' false s.val.name with
    | none => rfl
    | some name =>
    simp only [Option.bind_some]
    cases VarEnv.vars e' false s.val.runtime with
    | none => rfl
    | some runtime =>
    simp only [Option.bind_some]
    cases VarEnv.vars e' true s.val.qps with
    | none => rfl
    | some qps =>
    simp only [Option.bind_some]
    cases VarEnv.vars e' true s.val.tps with
    | none => rfl
    | some tps =>
    simp only [Option.bind_some]
    cases VarEnv.vars e' true s.val.instances with
    | none => rfl
    | some instances =>
    simp only [Option.bind_some]
    cases s.val.mysql.vars e' with
    | none => rfl
    | some mysql =>
    simp only [Option.bind_some, StatsCfg.vars]
    cases VarEnv.vars e' false s.val.stats.freq with
    | none => rfl
    | some freq =>
    simp only []
    cases hr : TMap.mapVals (TMap.mapVals (e'.vars false)) (h.report s.report) with
    | none =>
      rw [hr] at hrep
      simp only [] at hrep
      show Out.bind _ _ = _
      rw [hrep]; rfl
    | some rep =>
    rw [hr] at hrep
    obtain ⟨h2, e2, s2, l2, k2, m2⟩ := hrep
    simp only [Option.pure_def]
    have hb2 : ∀ (f : Heap → Out (HStage × Heap)), (h1.varsReport e' (h1.r s.report) >>= f) = f h2 := by
      intro f
      show Out.bind _ f = _
      rw [e2]; rfl
    rw [hb2]
    cases mapEach (TrxConf.vars e') s.val.trx with
    | none => rfl
    | some trx =>
    simp only [Option.bind_some]
    cases mapEach (CGConf.vars e') s.val.workload with
    | none => rfl
    | some workload =>
    have hr2 : h2.r s.report = h1.r s.report := by
      cases s.report <;> simp [Heap.r, s2]
    have hm2 : h2.m s.params = m := by
      rw [k2 s.params ?_, m1]
      intro j hj hmem
      exact hdiff.2.2 j (by simp [hj]) j hmem rfl
    have hrep2 : h2.report s.report = rep := by
      unfold Heap.report
      rw [hr2]; exact m2
    refine ⟨_, h2, rfl, ?_, ?_, ?_, rfl, ?_⟩
    · refine ⟨by rw [l2]; exact hx1.lm, by rw [s2]; exact hx1.lr, ?_, ?_⟩
      · intro j hj
        rw [k2 (some j) ?_]
        · exact hx1.m j hj
        · rintro _ ⟨⟩ hmem
          obtain ⟨x, hxm, hxe⟩ := List.mem_filterMap.1 hmem
          exact absurd (ho1.inner x hxm j hxe) (not_le.2 hj)
      · intro q hq
        have : h2.r (some q) = h1.r (some q) := by simp [Heap.r, s2]
        rw [this]; exact hx1.r q hq
    · refine ⟨⟨?_, ?_, ?_⟩, ho1.p, ho1.r, ?_, ?_⟩
      · rw [l2]; exact ho1.refs.p
      · rw [s2]; exact ho1.refs.r
      · rw [l2]; show ∀ x ∈ h2.r s.report, _
        rw [hr2]; exact ho1.refs.inner
      · show ∀ x ∈ h2.r s.report, _
        rw [hr2]; exact ho1.inner
      · show (s.params.toList ++ (h2.r s.report).filterMap _).Nodup
        rw [hr2]; exact ho1.diff
    · simp only [hm2, hrep2]
    · exact hr2.trans rr1

/-! ### `Validate` -/

theorem fillNil_spec {q : Nat} : ∀ (l d : TMap (Option Nat)) (h : Heap), q < h.rs.length →
    h.r (some q) = d ++ l → TMap.Distinct (d ++ l) → (∀ x ∈ l, ∀ j, x.2 = some j → j < h.ms.length) →
    ∃ (l' : TMap (Option Nat)) (X : List (TMap Text)),
      h.fillNil (some q) l = .ok { ms := h.ms ++ X, rs := h.rs.set q (d ++ l') } ∧
      (l'.map fun p => (p.1, (⟨h.ms ++ X, []⟩ : Heap).m p.2)) = l.map (fun p => (p.1, h.m p.2)) ∧
      (∀ x ∈ l', ∀ j, x.2 = some j → x ∈ l ∨ (h.ms.length ≤ j ∧ j < (h.ms ++ X).length)) ∧
      ((l.filterMap (·.2)).Nodup → (l'.filterMap (·.2)).Nodup)
  | [], d, h, hq, hr, _, _ => by
    refine ⟨[], [], ?_, by simp, by simp, by simp⟩
    cases h with
    | mk ms rs =>
      simp only [] at hq
      simp only [Heap.fillNil, List.append_nil, Out.ok.injEq, Heap.mk.injEq, true_and]
      simp only [Heap.r, List.getD_eq_getElem?_getD, List.getElem?_eq_getElem hq, Option.getD_some,
        List.append_nil] at hr
      rw [← hr]
      simp
  | (k, some i) :: rest, d, h, hq, hr, hd, hv => by
    obtain ⟨l', X, e1, e2, e3, e4⟩ := fillNil_spec rest (d ++ [(k, some i)]) h hq (by simp [hr])
      (by simpa using hd) (fun x hx => hv x (by simp [hx]))
    have hi := hv (k, some i) (by simp) i rfl
    refine ⟨(k, some i) :: l', X, ?_, ?_, ?_, ?_⟩
    · simp only [Heap.fillNil, ne_eq, reduceCtorEq, not_false_eq_true, if_true, e1]
      simp
    · simp only [List.map_cons, e2]
      simp [Heap.m, List.getElem?_append_left hi]
    · intro x hx j hj
      rcases List.mem_cons.1 hx with rfl | hx
      · exact Or.inl (by simp)
      · rcases e3 x hx j hj with h1 | h1
        · exact Or.inl (by simp [h1])
        · exact Or.inr h1
    · intro hn
      simp only [List.filterMap_cons, List.nodup_cons] at hn ⊢
      refine ⟨fun hm => ?_, e4 hn.2⟩
      obtain ⟨x, hx, hj⟩ := List.mem_filterMap.1 hm
      rcases e3 x hx i hj with h1 | h1
      · exact hn.1 (List.mem_filterMap.2 ⟨x, h1, hj⟩)
      · omega
  | (k, none) :: rest, d, h, hq, hr, hd, hv => by
    have hkd : k ∉ d.map (·.1) := by
      intro hc
      have := List.nodup_append.1 (by simpa [TMap.Distinct] using hd)
      exact this.2.2 k hc k (by simp) rfl
    let h1 : Heap := { ms := h.ms ++ [[]], rs := h.rs.set q (d ++ (k, some h.ms.length) :: rest) }
    have e0 : h.fillNil (some q) ((k, none) :: rest) = h1.fillNil (some q) rest := by
      rw [Heap.fillNil]
      simp only [ne_eq, not_true_eq_false, if_false]
      show (Heap.putR { h with ms := h.ms ++ [[]] } (some q) k (some h.ms.length)).bind _ = _
      have : Heap.putR { h with ms := h.ms ++ [[]] } (some q) k (some h.ms.length) = .ok h1 := by
        unfold Heap.putR
        simp only [h1]
        have : ({ h with ms := h.ms ++ [[]] } : Heap).r (some q) = d ++ (k, none) :: rest := hr
        rw [this, set_append k _ d _ hkd]
        simp [TMap.set]
      rw [this]
      rfl
    have hm1 : ∀ x ∈ rest, h1.m x.2 = h.m x.2 := by
      intro x hx
      cases hx2 : x.2 with
      | none => rfl
      | some j =>
        have := hv x (by simp [hx]) j hx2
        simp [h1, Heap.m, List.getElem?_append_left this]
    obtain ⟨l', X, e1, e2, e3, e4⟩ := fillNil_spec rest (d ++ [(k, some h.ms.length)]) h1 (by simpa [h1] using hq)
      (by simp [h1, Heap.r, hq]) (by simpa [TMap.Distinct] using hd)
      (fun x hx j hj => by have := hv x (by simp [hx]) j hj; simp [h1]; omega)
    refine ⟨(k, some h.ms.length) :: l', [] :: X, ?_, ?_, ?_, ?_⟩
    · rw [e0, e1]
      simp [h1]
    · have he : h.ms ++ [] :: X = h1.ms ++ X := by simp [h1]
      have hz : (⟨h1.ms ++ X, []⟩ : Heap).m (some h.ms.length) = [] := by simp [Heap.m, h1]
      have hrest : (rest.map fun p => (p.1, h1.m p.2)) = rest.map fun p => (p.1, h.m p.2) :=
        List.map_congr_left fun x hx => by
          show (x.1, h1.m x.2) = (x.1, h.m x.2)
          rw [hm1 x hx]
      simp only [List.map_cons, he, hz, e2, hrest]
      rfl
    · intro x hx j hj
      rcases List.mem_cons.1 hx with rfl | hx
      · cases hj
        exact Or.inr (by simp)
      · rcases e3 x hx j hj with h1' | h1'
        · exact Or.inl (by simp [h1'])
        · refine Or.inr ?_
          simp only [h1, List.length_append, List.length_cons, List.length_nil] at h1' ⊢
          omega
    · intro hn
      simp only [List.filterMap_cons, List.nodup_cons] at hn ⊢
      refine ⟨fun hm => ?_, e4 hn⟩
      obtain ⟨x, hx, hj⟩ := List.mem_filterMap.1 hm
      rcases e3 x hx _ hj with h1' | h1'
      · have := hv x (by simp [h1']) _ hj
        omega
      · simp only [h1, List.length_append, List.length_cons, List.length_nil] at h1'
        omega

theorem validate_maps {env : ValEnv} {c v : StageConf} (h : c.validate env = some v) :
    v.params = c.params ∧ v.stats.report = if c.disable then c.stats.report
      else if c.stats.report.isEmpty then [("stdout".toList, [("each-instance".toList, "true".toList)])]
      else c.stats.report := by
  unfold StageConf.validate at h
  by_cases hd : c.disable
  · rw [if_pos hd] at h
    cases h
    exact ⟨rfl, by rw [if_pos hd]⟩
  · rw [if_neg hd] at h
    simp only [] at h
    split at h
    · cases h
    split at h
    · cases h
    split at h
    · cases h
    split at h
    · cases h
    split at h
    · cases h
    split at h
    · cases h
    split at h
    · cases h
    split at h
    · cases h
    split at h
    · cases h
    rename_i stats hs
    cases h
    refine ⟨rfl, ?_⟩
    rw [if_neg hd]
    unfold StatsCfg.validate at hs
    split at hs
    · cases hs
    · cases hs
      rfl

theorem validate_spec {a h : Heap} {s : HStage} (env : ValEnv) (hx : MExt a h)
    (ho : Own a h s.params s.report) (hd : TMap.Distinct (h.r s.report)) :
    match (s.read h).validate env with
    | none => s.validate env h = .err
    | some c => ∃ s' h', s.validate env h = .ok (s', h') ∧ MExt a h' ∧ RefsIn h' s'.params s'.report ∧
        s'.read h' = c ∧ s'.n = s.n := by
  unfold HStage.validate
  cases hv : (s.read h).validate env with
  | none => rfl
  | some c =>
    obtain ⟨hvp, hvr⟩ := validate_maps hv
    simp only []
    by_cases hdis : s.val.disable
    · refine ⟨s, h, by rw [if_pos hdis], hx, ho.refs, ?_, rfl⟩
      have : (s.read h).validate env = some (s.read h) := by
        unfold StageConf.validate
        have : (s.read h).disable = true := hdis
        rw [if_pos this]
      rw [this] at hv
      exact Option.some.inj hv
    rw [if_neg hdis]
    have hdis' : (s.read h).disable = s.val.disable := rfl
    rw [hdis', if_neg hdis] at hvr
    have hread : ∀ (h' : Heap) (o : Option Nat), h'.m s.params = h.m s.params → h'.report o = c.stats.report →
        HStage.read h' { s with val := c, report := o } = c := by
      intro h' o h1 h2
      have h3 : c.params = h.m s.params := hvp
      simp only [HStage.read, h1, h2, ← h3]
    have hee : (s.read h).stats.report.isEmpty = (h.r s.report).isEmpty := by
      simp [HStage.read, Heap.report]
    rw [hee] at hvr
    by_cases he : (h.r s.report).isEmpty
    · rw [if_pos he] at hvr
      rw [if_pos he]
      refine ⟨{ s with val := c, report := some h.rs.length },
        { ms := h.ms ++ [[("each-instance".toList, "true".toList)]]
          rs := h.rs ++ [[("stdout".toList, some h.ms.length)]] }, ?_, ?_, ?_, ?_, rfl⟩
      · have e1 : Heap.putR { ms := h.ms ++ [[]], rs := h.rs ++ [[]] } (some h.rs.length) "stdout".toList
            (some h.ms.length) = .ok { ms := h.ms ++ [[]], rs := h.rs ++ [[("stdout".toList, some h.ms.length)]] } := by
          simp [Heap.putR, Heap.r, TMap.set]
        have e2 : Heap.putM { ms := h.ms ++ [[]], rs := h.rs ++ [[("stdout".toList, some h.ms.length)]] }
            (some h.ms.length) "each-instance".toList "true".toList =
            .ok { ms := h.ms ++ [[("each-instance".toList, "true".toList)]]
                  rs := h.rs ++ [[("stdout".toList, some h.ms.length)]] } := by
          simp [Heap.putM, Heap.m, TMap.set]
        show Out.bind (Heap.putR { ms := h.ms ++ [[]], rs := h.rs ++ [[]] } (some h.rs.length) "stdout".toList
            (some h.ms.length)) (fun h1 => Out.bind (h1.putM (some h.ms.length) "each-instance".toList "true".toList) _) = _
        simp only [e1, Out.bind, e2]
        rfl
      · refine hx.trans ⟨by simp, by simp, ?_, ?_⟩
        · intro j hj
          simp [Heap.m, List.getElem?_append_left hj]
        · intro q hq
          simp [Heap.r, List.getElem?_append_left hq]
      · refine ⟨?_, ?_, ?_⟩
        · intro j hj
          have := ho.refs.p j hj
          simp only [List.length_append, List.length_cons, List.length_nil]
          omega
        · rintro q ⟨⟩
          simp
        · intro x hxm j hj
          simp only [Heap.r, List.getD_eq_getElem?_getD, List.getElem?_append_right (le_refl _), Nat.sub_self,
            List.getElem?_cons_zero, Option.getD_some, List.mem_singleton] at hxm
          subst hxm
          cases hj
          simp
      · apply hread
        · cases hp : s.params with
          | none => rfl
          | some j =>
            have := ho.refs.p j hp
            simp [Heap.m, List.getElem?_append_left this]
        · rw [hvr]
          simp [Heap.report, Heap.r, Heap.m]
    · rw [if_neg he] at hvr
      rw [if_neg he]
      cases hrr : s.report with
      | none => simp [hrr, Heap.r] at he
      | some q =>
        rw [hrr] at ho hd
        have hq := ho.refs.r q rfl
        obtain ⟨l', X, e1, e2, e3, _⟩ := fillNil_spec (h.r (some q)) [] h hq rfl (by simpa using hd) ho.refs.inner
        simp only [List.nil_append] at e1
        have hr' : ({ ms := h.ms ++ X, rs := h.rs.set q l' } : Heap).r (some q) = l' := by simp [Heap.r, hq]
        have hm' : ∀ i, (∀ j, i = some j → j < h.ms.length) →
            ({ ms := h.ms ++ X, rs := h.rs.set q l' } : Heap).m i = h.m i := by
          intro i hi
          cases i with
          | none => rfl
          | some j => simp [Heap.m, List.getElem?_append_left (hi j rfl)]
        refine ⟨{ s with val := c, report := some q }, { ms := h.ms ++ X, rs := h.rs.set q l' }, ?_, ?_, ?_, ?_, rfl⟩
        · show Out.bind (h.fillNil (some q) (h.r (some q))) _ = _
          rw [e1]
          simp only [Out.bind]
        · refine ⟨by simpa using hx.lm.trans (Nat.le_add_right _ _), by simpa using hx.lr, ?_, ?_⟩
          · intro j hj
            rw [hm' _ (by rintro _ ⟨⟩; exact hj.trans_le hx.lm)]
            exact hx.m j hj
          · intro p hp
            have : q ≠ p := by have := ho.r q rfl; omega
            have h1 : ({ ms := h.ms ++ X, rs := h.rs.set q l' } : Heap).r (some p) = h.r (some p) := by
              simp [Heap.r, this]
            rw [h1]; exact hx.r p hp
        · refine ⟨?_, ?_, ?_⟩
          · intro j hj
            have := ho.refs.p j hj
            simp only [List.length_append]
            omega
          · rintro _ ⟨⟩
            simpa using hq
          · intro x hxm j hj
            rw [hr'] at hxm
            rcases e3 x hxm j hj with h1 | h1
            · have := ho.refs.inner x h1 j hj
              simp only [List.length_append]
              omega
            · exact h1.2
        · apply hread
          · exact hm' _ ho.refs.p
          · have h1 : c.stats.report = h.report (some q) := by rw [hvr]; simp [HStage.read, hrr]
            rw [h1]
            unfold Heap.report
            rw [hr', ← e2]
            apply List.map_congr_left
            intro x _
            cases x.2 <;> simp [Heap.m]

/-! ### `Load` -/

/-- The base config of a directory: empty if there is no file, an error if it is bad. -/
def BaseFile.conf : BaseFile → Option BaseCfg
  | .missing => some {}
  | .bad => none
  | .ok b => some b

/-- What stage `n` (from zero) should be: its own file, over the base of its own directory as it is in the
file, over the command line, with variables replaced, validated in its own directory. -/
def LoadEnv.stage (E : LoadEnv) (cwd : Text) (params : TMap Text) (n : Nat) (file : Text) : Option StageConf := do
  let b ← (E.base cwd (E.dir file)).conf
  let c ← E.file cwd file
  let c := loadStage b params E.dsn E.db { c with file := E.abs cwd file }
  let c ← c.vars E.vars (E.order n c.params)
  c.validate (E.val (E.chdir cwd (E.dir file)))

/-- Go maps have distinct keys, a loop over a map takes each of them, and one can go back to the working
directory. -/
structure LoadEnv.Ok (E : LoadEnv) (cwd : Text) : Prop where
  base : ∀ dir b, E.base cwd dir = .ok b → MapsOk b.params b.stats.report
  file : ∀ f c, E.file cwd f = some c → MapsOk c.params c.stats.report
  order : ∀ n m, (E.order n m).Perm (m.map (·.1))
  chdir : ∀ d, E.chdir d cwd = cwd

/-- The loop invariant. -/
structure LoadInv (E : LoadEnv) (params : TMap Text) (cwd0 : Text) (st : LoadSt) : Prop where
  cwd : st.cwd = cwd0
  base : ∀ dir b, st.base.get? dir = some b → RefsIn st.h b.params b.report ∧
    ∃ c, (E.base cwd0 dir).conf = some c ∧ b.read st.h = c.withParams params
  stages : ∀ s ∈ st.stages, RefsIn st.h s.params s.report

theorem own_none (a h : Heap) : Own a h none none :=
  ⟨⟨by simp, by simp, by simp [Heap.r]⟩, by simp, by simp, by simp [Heap.r], by simp [Heap.r]⟩

theorem LoadInv.ext {E : LoadEnv} {params : TMap Text} {cwd : Text} {st : LoadSt}
    (hi : LoadInv E params cwd st) {h : Heap} (hx : MExt st.h h) : LoadInv E params cwd { st with h := h } where
  cwd := hi.cwd
  base dir b hb := by
    obtain ⟨h1, c, h2, h3⟩ := hi.base dir b hb
    exact ⟨h1.mono hx, c, h2, by rw [HBase.read_ext hx h1]; exact h3⟩
  stages s hs := (hi.stages s hs).mono hx

theorem loadBase_spec {E : LoadEnv} {params : TMap Text} {cwd : Text} {st : LoadSt}
    (hi : LoadInv E params cwd st) (dir : Text) :
    match (E.base cwd dir).conf with
    | none => loadBase E params st dir = .err
    | some c => ∃ b st', loadBase E params st dir = .ok (b, st') ∧ LoadInv E params cwd st' ∧ MExt st.h st'.h ∧
        st'.stages = st.stages ∧ RefsIn st'.h b.params b.report ∧ b.read st'.h = c.withParams params := by
  unfold loadBase
  cases hb : st.base.get? dir with
  | some b =>
    obtain ⟨h1, c, h2, h3⟩ := hi.base dir b hb
    rw [h2]
    exact ⟨b, st, rfl, hi, MExt.refl _, rfl, h1, h3⟩
  | none =>
    simp only [hi.cwd]
    -- the new base is remembered
    have key : ∀ (b : HBase) (h : Heap) (c : BaseCfg), (E.base cwd dir).conf = some c → MExt st.h h →
        RefsIn h b.params b.report → b.read h = c.withParams params →
        LoadInv E params cwd { st with h := h, base := st.base.set dir b } := by
      intro b h c hc hx hr he
      refine ⟨hi.cwd, ?_, (hi.ext hx).stages⟩
      intro d b' hb'
      have hb'' : TMap.get? (TMap.set st.base dir b) d = some b' := hb'
      rw [lookup_set] at hb''
      by_cases hd : d = dir
      · subst hd
        rw [if_pos rfl] at hb''
        cases hb''
        exact ⟨hr, c, hc, he⟩
      · rw [if_neg hd] at hb''
        exact (hi.ext hx).base d b' hb''
    cases hf : E.base cwd dir with
    | bad => rfl
    | missing =>
      rw [hf] at key
      obtain ⟨h', e1, hx1, ho1, hr1⟩ := withParams_spec (b := {}) (MExt.refl st.h) (own_none _ _) params
      have hk := key {} h' {} rfl hx1 ho1.refs hr1
      refine ⟨{}, _, ?_, hk, hx1, rfl, ho1.refs, hr1⟩
      rw [hi.cwd]
      show Out.bind _ _ = _
      rw [e1]
      rfl
    | ok c =>
      rw [hf] at key
      obtain ⟨p, h1, r, h2, d1, d2, hx2, ho2, hp2, hr2⟩ := decode_own st.h c.params c.stats.report
      have hd : st.h.decodeBase c = (⟨c, p, r⟩, h2) := by
        simp only [Heap.decodeBase, d1, d2]
      have hread : (⟨c, p, r⟩ : HBase).read h2 = c := by
        simp only [HBase.read, hp2, hr2]
      obtain ⟨h', e1, hx1, ho1, hr1⟩ := withParams_spec (b := ⟨c, p, r⟩) hx2 ho2 params
      rw [hread] at hr1
      have hk := key ⟨c, p, r⟩ h' c rfl hx1 ho1.refs hr1
      refine ⟨⟨c, p, r⟩, _, ?_, hk, hx1, rfl, ho1.refs, hr1⟩
      simp only [hd]
      rw [hi.cwd]
      show Out.bind _ _ = _
      rw [e1]
      rfl

theorem commandLine_maps (c : StageConf) (dsn db : Text) : (c.commandLine dsn db).params = c.params ∧
    (c.commandLine dsn db).stats = c.stats := by
  unfold StageConf.commandLine
  split <;> split <;> exact ⟨rfl, rfl⟩

theorem commandLine_read (h : Heap) (s : HStage) (dsn db : Text) :
    ({ s with val := s.val.commandLine dsn db } : HStage).read h = (s.read h).commandLine dsn db := by
  unfold HStage.read StageConf.commandLine
  by_cases h1 : dsn = [] <;> by_cases h2 : db = [] <;> simp [h1, h2]

theorem withParams_maps {b : BaseCfg} (hb : MapsOk b.params b.stats.report) (params : TMap Text) :
    MapsOk (b.withParams params).params (b.withParams params).stats.report := by
  unfold BaseCfg.withParams
  split
  · exact hb
  · refine ⟨?_, hb.report, hb.inner⟩
    have : ∀ (l m : TMap Text), m.Distinct → TMap.Distinct (l.foldl (fun m kv => m.set kv.1 kv.2) m) := by
      intro l
      induction l with
      | nil => exact fun m hm => hm
      | cons x l ih => exact fun m hm => ih _ (keys_set x.1 x.2 m hm).1
    exact this params b.params hb.params

theorem conf_maps {E : LoadEnv} {cwd : Text} (hE : E.Ok cwd) {dir : Text} {c : BaseCfg}
    (hc : (E.base cwd dir).conf = some c) : MapsOk c.params c.stats.report := by
  cases hf : E.base cwd dir with
  | bad => rw [hf] at hc; cases hc
  | missing => rw [hf] at hc; cases hc; exact ⟨by simp [TMap.Distinct], by simp [TMap.Distinct], by simp⟩
  | ok b => rw [hf] at hc; cases hc; exact hE.base dir c hf

theorem loadRound_spec {E : LoadEnv} {params : TMap Text} {cwd : Text} {st : LoadSt} (hE : E.Ok cwd)
    (hi : LoadInv E params cwd st) (n : Nat) (file : Text) :
    match E.stage cwd params n file with
    | none => loadRound E params cwd st n file = .err
    | some c => ∃ s st', loadRound E params cwd st n file = .ok st' ∧ LoadInv E params cwd st' ∧
        MExt st.h st'.h ∧ st'.stages = st.stages ++ [s] ∧ s.n = n + 1 ∧ s.read st'.h = c := by
  unfold LoadEnv.stage loadRound
  have hb := loadBase_spec hi (E.dir file)
  cases hc : (E.base cwd (E.dir file)).conf with
  | none =>
    rw [hc] at hb
    simp only [Option.bind_eq_bind, Option.bind_none]
    show Out.bind _ _ = _
    rw [hb]; rfl
  | some bc =>
    rw [hc] at hb
    obtain ⟨b, st1, e1, hi1, hx1, hs1, hr1, hb1⟩ := hb
    have hbind : ∀ (f : HBase × LoadSt → Out LoadSt), (loadBase E params st (E.dir file) >>= f) = f (b, st1) := by
      intro f
      show Out.bind _ f = _
      rw [e1]; rfl
    rw [hbind]
    simp only [Option.bind_eq_bind, Option.bind_some, hi1.cwd]
    cases hf : E.file cwd file with
    | none => rfl
    | some c0 =>
      simp only [Option.bind_some]
      have hb2 : ∀ (f : StageConf → Out LoadSt), (Out.ofOption (some c0) >>= f) = f c0 := fun f => rfl
      rw [hb2]
      obtain ⟨p, h1, r, h2, d1, d2, hx2, ho2, hp2, hr2⟩ := decode_own st1.h c0.params c0.stats.report
      have hd : st1.h.decodeStage (n + 1) { c0 with file := E.abs cwd file } =
          (⟨n + 1, { c0 with file := E.abs cwd file }, p, r⟩, h2) := by
        simp only [Heap.decodeStage, d1, d2]
      simp only [hd]
      have hmb : MapsOk (b.read st1.h).params (b.read st1.h).stats.report := by
        rw [hb1]; exact withParams_maps (conf_maps hE hc) params
      obtain ⟨s3, h3, e3, hx3, ho3, hr3, hn3⟩ := withBase_spec
        (s := ⟨n + 1, { c0 with file := E.abs cwd file }, p, r⟩) hx2 ho2 hr1 hmb
      have hread2 : (⟨n + 1, { c0 with file := E.abs cwd file }, p, r⟩ : HStage).read h2 =
          { c0 with file := E.abs cwd file } := by
        simp only [HStage.read, hp2, hr2]
      rw [hread2, hb1] at hr3
      have hb3 : ∀ (f : HStage × Heap → Out LoadSt),
          (HStage.withBase h2 ⟨n + 1, { c0 with file := E.abs cwd file }, p, r⟩ b >>= f) = f (s3, h3) := by
        intro f
        show Out.bind _ f = _
        rw [e3]; rfl
      rw [hb3]
      simp only []
      -- the command line
      have hr4 : ({ s3 with val := s3.val.commandLine E.dsn E.db } : HStage).read h3 =
          loadStage bc params E.dsn E.db { c0 with file := E.abs cwd file } := by
        rw [commandLine_read, hr3]; rfl
      generalize hs4 : ({ s3 with val := s3.val.commandLine E.dsn E.db } : HStage) = s4 at hr4
      have ho4 : Own st1.h h3 s4.params s4.report := by rw [← hs4]; exact ho3
      have hn4 : s4.n = n + 1 := by rw [← hs4]; exact hn3
      generalize hl : loadStage bc params E.dsn E.db { c0 with file := E.abs cwd file } = c4 at hr4
      have hmaps : TMap.Distinct c4.stats.report ∧ ∀ x ∈ c4.stats.report, TMap.Distinct x.2 := by
        have h0 := hE.file file c0 hf
        have hb0 := withParams_maps (conf_maps hE hc) params
        have : c4.stats.report = if (bc.withParams params).stats.report.isEmpty then c0.stats.report
            else (bc.withParams params).stats.report := by
          rw [← hl]
          unfold loadStage
          rw [(commandLine_maps _ _ _).2]
          rfl
        rw [this]
        split
        · exact ⟨h0.report, h0.inner⟩
        · exact ⟨hb0.report, hb0.inner⟩
      have hrep4 : h3.report s4.report = c4.stats.report := by rw [← hr4]; rfl
      have hpar4 : h3.m s4.params = c4.params := by rw [← hr4]; rfl
      have hd4 : ∀ x ∈ h3.r s4.report, TMap.Distinct (h3.m x.2) := by
        intro x hx
        exact hmaps.2 (x.1, h3.m x.2) (by rw [← hrep4]; exact List.mem_map.2 ⟨x, hx, rfl⟩)
      have hk4 : TMap.Distinct (h3.r s4.report) := by
        have := hmaps.1
        rw [← hrep4] at this
        simpa [TMap.Distinct, Heap.report, Function.comp_def] using this
      have hv := vars_spec (s := s4) E.vars (E.order n (h3.m s4.params)) hx3 ho4 hd4 (by
        intro hp
        have := hE.order n (h3.m s4.params)
        rw [hp] at this ⊢
        exact List.perm_nil.1 this)
      rw [hr4, hpar4] at hv
      have hp34 : h3.m s3.params = c4.params := by rw [← hpar4, ← hs4]
      rw [hp34]
      cases hv4 : c4.vars E.vars (E.order n c4.params) with
      | none =>
        rw [hv4] at hv
        simp only [] at hv
        simp only [Option.bind_none]
        show Out.bind _ _ = _
        rw [hv]; rfl
      | some c5 =>
        rw [hv4] at hv
        obtain ⟨s5, h5, e5, hx5, ho5, hr5, hn5, hrr5⟩ := hv
        have hb5 : ∀ (f : HStage × Heap → Out LoadSt),
            (HStage.vars E.vars (E.order n c4.params) h3 s4 >>= f) = f (s5, h5) := by
          intro f
          show Out.bind _ f = _
          rw [e5]; rfl
        rw [hb5]
        simp only [Option.bind_some]
        have hva := validate_spec (s := s5) (E.val (E.chdir cwd (E.dir file))) hx5 ho5 (by rw [hrr5]; exact hk4)
        rw [hr5] at hva
        cases hv5 : c5.validate (E.val (E.chdir cwd (E.dir file))) with
        | none =>
          rw [hv5] at hva
          simp only [] at hva
          show Out.bind _ _ = _
          rw [hva]; rfl
        | some c6 =>
          rw [hv5] at hva
          obtain ⟨s6, h6, e6, hx6, hr6, hc6, hn6⟩ := hva
          have hi6 := hi1.ext hx6
          refine ⟨s6, { st1 with h := h6, cwd := E.chdir (E.chdir cwd (E.dir file)) cwd, stages := st1.stages ++ [s6] },
            ?_, ⟨?_, hi6.base, ?_⟩, hx1.trans hx6, ?_, ?_, hc6⟩
          · show Out.bind _ _ = _
            rw [e6]; rfl
          · exact hE.chdir _
          · intro s hs
            rcases List.mem_append.1 hs with hs | hs
            · exact hi6.stages s hs
            · rw [List.mem_singleton.1 hs]; exact hr6
          · rw [hs1]
          · rw [hn6, hn5, hn4]

/-- The stages as they should be, or none if one of the files is bad. -/
def LoadEnv.stages (E : LoadEnv) (cwd : Text) (params : TMap Text) : Nat → List Text →
    Option (List (Nat × StageConf))
  | _, [] => some []
  | n, f :: fs =>
    (E.stage cwd params n f).bind fun c => (E.stages cwd params (n + 1) fs).map ((n + 1, c) :: ·)

theorem loadLoop_spec {E : LoadEnv} {params : TMap Text} {cwd : Text} (hE : E.Ok cwd) :
    ∀ (files : List Text) (n : Nat) (st : LoadSt), LoadInv E params cwd st →
    match E.stages cwd params n files with
    | none => loadLoop E params cwd st n files = .err
    | some l => ∃ st', loadLoop E params cwd st n files = .ok st' ∧ st'.cwd = cwd ∧ MExt st.h st'.h ∧
        st'.stages.map (fun s => (s.n, s.read st'.h)) = st.stages.map (fun s => (s.n, s.read st.h)) ++ l
  | [], n, st, hi => ⟨st, rfl, hi.cwd, MExt.refl _, by simp⟩
  | f :: fs, n, st, hi => by
    have h1 := loadRound_spec hE hi n f
    unfold LoadEnv.stages loadLoop
    cases hc : E.stage cwd params n f with
    | none =>
      rw [hc] at h1
      simp only [] at h1
      simp only [Option.bind_none]
      show Out.bind _ _ = _
      rw [h1]; rfl
    | some c =>
      rw [hc] at h1
      obtain ⟨s, st1, e1, hi1, hx1, hs1, hn1, hr1⟩ := h1
      have ih := loadLoop_spec hE fs (n + 1) st1 hi1
      have hb : ∀ (g : LoadSt → Out LoadSt), (loadRound E params cwd st n f >>= g) = g st1 := by
        intro g
        show Out.bind _ g = _
        rw [e1]; rfl
      rw [hb]
      simp only [Option.bind_some]
      cases hl : E.stages cwd params (n + 1) fs with
      | none => rw [hl] at ih; exact ih
      | some l =>
        rw [hl] at ih
        obtain ⟨st2, e2, hc2, hx2, hm2⟩ := ih
        refine ⟨st2, e2, hc2, hx1.trans hx2, ?_⟩
        rw [hm2, hs1]
        have : st.stages.map (fun s => (s.n, s.read st1.h)) = st.stages.map (fun s => (s.n, s.read st.h)) :=
          List.map_congr_left fun s hs => by
            show (s.n, s.read st1.h) = (s.n, s.read st.h)
            rw [HStage.read_ext hx1 (hi.stages s hs)]
        simp [this, hn1, hr1]

/-- **C99.** Loading any list of stage files gives, in the order of the command line and numbered from one,
exactly what each file gives on its own; if a file is bad it returns an error; it never crashes. In
particular no stage changes the base config, another stage or the directory in which later files
are looked up. -/
theorem C99_load {E : LoadEnv} {cwd : Text} (hE : E.Ok cwd) (files kvparams : List Text) :
    load E cwd files kvparams =
      match E.stages cwd (cmdParams kvparams) 0 files with
      | none => .err
      | some l => .ok l := by
  have h := loadLoop_spec (params := cmdParams kvparams) hE files 0 { cwd := cwd }
    ⟨rfl, by simp [TMap.get?], by simp⟩
  unfold load
  cases hl : E.stages cwd (cmdParams kvparams) 0 files with
  | none =>
    rw [hl] at h
    simp only [] at h
    show Out.bind _ _ = _
    rw [h]; rfl
  | some l =>
    rw [hl] at h
    obtain ⟨st, e, _, _, hm⟩ := h
    show Out.bind _ _ = _
    rw [e]
    simp only [Out.bind]
    rw [hm]
    rfl

theorem stages_get {E : LoadEnv} {cwd : Text} {params : TMap Text} : ∀ (files : List Text) (n : Nat)
    (l : List (Nat × StageConf)), E.stages cwd params n files = some l → l.length = files.length ∧
    ∀ i f, files[i]? = some f → ∃ c, E.stage cwd params (n + i) f = some c ∧ l[i]? = some (n + i + 1, c)
  | [], n, l, h => by cases h; simp
  | g :: fs, n, l, h => by
    unfold LoadEnv.stages at h
    obtain ⟨c, hc, h⟩ := Option.bind_eq_some_iff.1 h
    obtain ⟨l', hl', h⟩ := Option.map_eq_some_iff.1 h
    subst h
    obtain ⟨h1, h2⟩ := stages_get fs (n + 1) l' hl'
    refine ⟨by simp [h1], ?_⟩
    intro i f hi
    cases i with
    | zero =>
      simp only [List.getElem?_cons_zero, Option.some.injEq] at hi
      subst hi
      exact ⟨c, hc, by simp⟩
    | succ i =>
      obtain ⟨c', hc', hg⟩ := h2 i f (by simpa using hi)
      refine ⟨c', by rw [← hc']; congr 1; omega, ?_⟩
      simp only [List.getElem?_cons_succ, hg]
      congr 2
      omega

theorem stages_none {E : LoadEnv} {cwd : Text} {params : TMap Text} : ∀ (files : List Text) (n : Nat),
    E.stages cwd params n files = none ↔ ∃ i f, files[i]? = some f ∧ E.stage cwd params (n + i) f = none
  | [], n => by simp [LoadEnv.stages]
  | g :: fs, n => by
    unfold LoadEnv.stages
    have ih := stages_none (E := E) (cwd := cwd) (params := params) fs (n + 1)
    cases hc : E.stage cwd params n g with
    | none =>
      simp only [Option.bind_none, true_iff]
      exact ⟨0, g, by simp, by simpa using hc⟩
    | some c =>
      simp only [Option.bind_some, Option.map_eq_none_iff, ih]
      constructor
      · rintro ⟨i, f, h1, h2⟩
        exact ⟨i + 1, f, by simpa using h1, by rw [← h2]; congr 1; omega⟩
      · rintro ⟨i, f, h1, h2⟩
        cases i with
        | zero =>
          simp only [List.getElem?_cons_zero, Option.some.injEq] at h1
          subst h1
          rw [Nat.add_zero, hc] at h2
          cases h2
        | succ i => exact ⟨i, f, by simpa using h1, by rw [← h2]; congr 1; omega⟩

/-- **C99.** If loading succeeds there is one stage for each file; the one at position `i` has the number
`i + 1` and is what its file gives. Otherwise some file gives an error. -/
theorem C99_each {E : LoadEnv} {cwd : Text} (hE : E.Ok cwd) (files kvparams : List Text) :
    (∀ l, load E cwd files kvparams = .ok l → l.length = files.length ∧
      ∀ i f, files[i]? = some f → ∃ c, E.stage cwd (cmdParams kvparams) i f = some c ∧ l[i]? = some (i + 1, c)) ∧
    (load E cwd files kvparams = .err ↔
      ∃ i f, files[i]? = some f ∧ E.stage cwd (cmdParams kvparams) i f = none) ∧
    load E cwd files kvparams ≠ .panic := by
  rw [C99_load hE]
  cases hl : E.stages cwd (cmdParams kvparams) 0 files with
  | none =>
    refine ⟨by simp, ?_, by simp⟩
    have := (stages_none files 0).1 hl
    simpa using this
  | some l =>
    refine ⟨?_, ?_, by simp⟩
    · rintro _ ⟨⟩
      have := stages_get files 0 l hl
      simpa using this
    · simp only [reduceCtorEq, false_iff]
      intro h
      have h' : ∃ i f, files[i]? = some f ∧ E.stage cwd (cmdParams kvparams) (0 + i) f = none := by simpa using h
      rw [(stages_none files 0).2 h'] at hl
      cases hl

/-- **C99.** More files on the command line do not change the stages of the files before them. -/
theorem C99_more {E : LoadEnv} {cwd : Text} (hE : E.Ok cwd) (files more kvparams : List Text)
    {l l' : List (Nat × StageConf)} (h : load E cwd files kvparams = .ok l)
    (h' : load E cwd (files ++ more) kvparams = .ok l') : l <+: l' := by
  obtain ⟨n1, g1⟩ := (C99_each hE files kvparams).1 l h
  obtain ⟨n2, g2⟩ := (C99_each hE (files ++ more) kvparams).1 l' h'
  rw [List.prefix_iff_getElem?]
  intro i hi
  have hi' : i < files.length := by omega
  obtain ⟨c1, a1, b1⟩ := g1 i files[i] (by simp [hi'])
  obtain ⟨c2, a2, b2⟩ := g2 i files[i] (by simp [List.getElem?_append_left hi'])
  rw [a1] at a2
  cases a2
  rw [b2, ← b1, List.getElem?_eq_getElem hi]

/-! ### Example

Two stages in a directory whose base has a reporter with a param; the first stage has its own value for
the param. -/

def exLoadEnv : LoadEnv where
  dir _ := "d".toList
  base _ _ := .ok { params := [("out".toList, "base".toList)]
                    stats := { report := [("csv".toList, [("file".toList, "${params.out}.csv".toList)]),
                                          ("stdout".toList, [])] } }
  file _ f :=
    if f = "d/a".toList then
      some { params := [("out".toList, "a".toList)], trx := [{ file := "t.sql".toList }] }
    else if f = "d/b".toList then some { trx := [{ file := "t.sql".toList }] }
    else none
  abs _ f := '/' :: f
  chdir _ d := d
  val cwd := { fileExists := fun f => cwd = "d".toList && f = "t.sql".toList, duration := fun _ => none }
  vars := { params := [], sys := fun _ => none, env := fun _ => none, human := fun _ => none }
  order _ m := m.map (·.1)
  dsn := []
  db := "test".toList

theorem exLoadEnv_ok : exLoadEnv.Ok "/".toList where
  base dir b h := by
    cases h
    constructor
    · unfold TMap.Distinct; decide
    · unfold TMap.Distinct; decide
    · intro x hx
      simp only [List.mem_cons, List.not_mem_nil, or_false] at hx
      rcases hx with rfl | rfl <;> (unfold TMap.Distinct; decide)
  file f c h := by
    unfold exLoadEnv at h
    simp only [] at h
    split at h
    · cases h
      exact ⟨by unfold TMap.Distinct; decide, by unfold TMap.Distinct; decide, by simp⟩
    · split at h
      · cases h
        exact ⟨by unfold TMap.Distinct; decide, by unfold TMap.Distinct; decide, by simp⟩
      · cases h
  order n m := List.Perm.refl _
  chdir d := rfl

/-- The result as far as it is of interest here: number, file and file of the CSV reporter. -/
def exShow (o : Out (List (Nat × StageConf))) : Out (List (Nat × Text × Text)) :=
  match o with
  | .ok l => .ok (l.map fun p => (p.1, p.2.file, (p.2.stats.report.get? "csv".toList).elim [] fun m => (m.get? "file".toList).getD []))
  | .err => .err
  | .panic => .panic

example : exShow (load exLoadEnv "/".toList ["d/a".toList, "d/b".toList] []) =
    .ok [(1, "/d/a".toList, "a.csv".toList),
         (2, "/d/b".toList, "base.csv".toList)] := by decide +kernel

example : exShow (load exLoadEnv "/".toList ["d/b".toList, "d/a".toList] ["out=x".toList]) =
    .ok [(1, "/d/b".toList, "x.csv".toList),
         (2, "/d/a".toList, "a.csv".toList)] := by decide +kernel

example : load exLoadEnv "/".toList ["d/a".toList, "d/c".toList] [] = .err := by decide +kernel

end Finch
