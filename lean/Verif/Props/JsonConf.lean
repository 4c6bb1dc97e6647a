import Verif.Model.JsonConf
import Verif.Props.Json
/-!
C127 for the configuration of a stage: the one that the remote instance decodes is the one of the server.
-/
namespace Finch

theorem char_scalar (c : Char) : Scalar c.toNat := by
  have := c.valid
  unfold Scalar
  rcases this with h | h
  · have h' : c.toNat < 0xD800 := h
    exact ⟨by omega, by omega⟩
  · have h1 : 0xDFFF < c.toNat := h.1
    have h2 : c.toNat < 0x110000 := h.2
    exact ⟨by omega, by omega⟩

theorem ofNat_inj {a b : Nat} (ha : a < 256) (hb : b < 256) (h : UInt8.ofNat a = UInt8.ofNat b) : a = b := by
  have := congrArg UInt8.toNat h
  simp only [UInt8.toNat_ofNat'] at this
  omega

theorem utf8Rune_inj {n m : Nat} (hn : Scalar n) (hm : Scalar m) (h : utf8Rune n = utf8Rune m) : n = m := by
  have hl := congrArg List.length h
  obtain ⟨hn1, hn2⟩ := hn
  obtain ⟨hm1, hm2⟩ := hm
  unfold utf8Rune at h hl
  have sn : ((decide (0xD800 ≤ n) && decide (n < 0xE000)) || decide (0x10FFFF < n)) = false := by
    simp; omega
  have sm : ((decide (0xD800 ≤ m) && decide (m < 0xE000)) || decide (0x10FFFF < m)) = false := by
    simp; omega
  simp only [sn, sm, Bool.false_eq_true, if_false] at h hl
  by_cases a1 : n < 0x80 <;> by_cases b1 : m < 0x80 <;> by_cases a2 : n < 0x800 <;> by_cases b2 : m < 0x800 <;>
    by_cases a3 : n < 0x10000 <;> by_cases b3 : m < 0x10000 <;>
    simp only [a1, a2, a3, b1, b2, b3, if_true, if_false, List.length_cons, List.length_nil, List.cons.injEq, and_true] at h hl <;>
    first
    | omega
    | (have := ofNat_inj (by omega) (by omega) h; omega)
    | (obtain ⟨h1, h2⟩ := h
       have := ofNat_inj (by omega) (by omega) h1
       have := ofNat_inj (by omega) (by omega) h2
       omega)
    | (obtain ⟨h1, h2, h3⟩ := h
       have := ofNat_inj (by omega) (by omega) h1
       have := ofNat_inj (by omega) (by omega) h2
       have := ofNat_inj (by omega) (by omega) h3
       omega)
    | (obtain ⟨h1, h2, h3, h4⟩ := h
       have := ofNat_inj (by omega) (by omega) h1
       have := ofNat_inj (by omega) (by omega) h2
       have := ofNat_inj (by omega) (by omega) h3
       have := ofNat_inj (by omega) (by omega) h4
       omega)

theorem utf8Text_ok : ∀ t : Text, Utf8Text (utf8Text t)
  | [] => .nil
  | c :: t => .cons (char_scalar c) (utf8Text_ok t)

theorem utf8Text_inj : ∀ {a b : Text}, utf8Text a = utf8Text b → a = b
  | [], [], _ => rfl
  | [], c :: b, h => by
    have := (runeLen_utf8 (char_scalar c) (utf8Text b)).2
    have h2 := congrArg List.length h
    simp only [utf8Text, List.flatMap_nil, List.flatMap_cons, List.length_nil, List.length_append] at h2
    omega
  | c :: a, [], h => by
    have := (runeLen_utf8 (char_scalar c) (utf8Text a)).2
    have h2 := congrArg List.length h
    simp only [utf8Text, List.flatMap_nil, List.flatMap_cons, List.length_nil, List.length_append] at h2
    omega
  | c :: a, d :: b, h => by
    obtain ⟨h1, h2⟩ := utf8_append_inj (char_scalar c) (char_scalar d) (s := utf8Text a) (t := utf8Text b) h
    have h3 := utf8Rune_inj (char_scalar c) (char_scalar d) h1
    rw [utf8Text_inj h2, Char.ext (UInt32.toNat_inj.mp h3)]

theorem jText_inj {a b : Text} (h : jText a = jText b) : a = b := utf8Text_inj (JVal.str.inj h)

theorem jPtrBool_inj : ∀ {a b : Option Bool}, jPtrBool a = jPtrBool b → a = b
  | none, none, _ => rfl
  | none, some _, h => by simp [jPtrBool] at h
  | some _, none, h => by simp [jPtrBool] at h
  | some _, some _, h => by simpa [jPtrBool] using h

theorem map_inj {α β : Type} {f : α → β} : ∀ {l m : List α}, (∀ a ∈ l, ∀ b, f a = f b → a = b) → l.map f = m.map f → l = m
  | [], [], _, _ => rfl
  | [], _ :: _, _, h => by simp at h
  | _ :: _, [], _, h => by simp at h
  | a :: l, b :: m, hf, h => by
    simp only [List.map_cons, List.cons.injEq] at h
    rw [hf a (by simp) b h.1, map_inj (fun x hx => hf x (List.mem_cons_of_mem _ hx)) h.2]

theorem jList_inj {α : Type} {nil : Bool} {f : α → JVal} (hf : ∀ a b, f a = f b → a = b) {l m : List α}
    (h : jList nil f l = jList nil f m) : l = m := by
  cases nil
  · simp only [jList, Bool.and_false, Bool.false_eq_true, if_false, JVal.arr.injEq] at h
    exact map_inj (fun a _ b => hf a b) h
  · cases l <;> cases m <;> simp only [jList, List.isEmpty_nil, List.isEmpty_cons, Bool.true_and, Bool.false_and, if_true,
      Bool.false_eq_true, if_false, reduceCtorEq, JVal.arr.injEq] at h
    · rfl
    · exact map_inj (fun a _ b => hf a b) h

theorem jMap_inj {α : Type} {nil : Bool} {f : α → JVal} (hf : ∀ a b, f a = f b → a = b) {l m : TMap α}
    (h : jMap nil f l = jMap nil f m) : l = m := by
  have hg : ∀ a b : Text × α, (utf8Text a.1, f a.2) = (utf8Text b.1, f b.2) → a = b := by
    intro a b e
    simp only [Prod.mk.injEq] at e
    exact Prod.ext (utf8Text_inj e.1) (hf _ _ e.2)
  cases nil
  · simp only [jMap, Bool.and_false, Bool.false_eq_true, if_false, JVal.obj.injEq] at h
    exact map_inj (fun a _ b => hg a b) h
  · cases l <;> cases m <;> simp only [jMap, List.isEmpty_nil, List.isEmpty_cons, Bool.true_and, Bool.false_and, if_true,
      Bool.false_eq_true, if_false, reduceCtorEq, JVal.obj.injEq] at h
    · rfl
    · exact map_inj (fun a _ b => hg a b) h

/-- A field list determines its values. -/
theorem fields_inj {l m : List (Bytes × JVal)} (h : JVal.obj l = JVal.obj m) : l.map (·.2) = m.map (·.2) := by
  rw [JVal.obj.inj h]

theorem tls_inj {a b : TLSCfg} (h : a.toJson = b.toJson) : a = b := by
  have h := fields_inj h
  simp only [List.map_cons, List.map_nil, List.cons.injEq, and_true] at h
  obtain ⟨h1, h2, h3, h4, h5, h6⟩ := h
  cases a; cases b
  simp only at h1 h2 h3 h4 h5 h6
  rw [jText_inj h1, jText_inj h2, jText_inj h3, jPtrBool_inj h4, jPtrBool_inj h5, jText_inj h6]

theorem mysql_inj {a b : MySQLCfg} (h : a.toJson = b.toJson) : a = b := by
  have h := fields_inj h
  simp only [List.map_cons, List.map_nil, List.cons.injEq, and_true] at h
  obtain ⟨h1, h2, h3, h4, h5, h6, h7, h8, h9, h10, h11⟩ := h
  cases a; cases b
  simp only at h1 h2 h3 h4 h5 h6 h7 h8 h9 h10 h11
  rw [jText_inj h1, jText_inj h2, jText_inj h3, jText_inj h4, jText_inj h5, jText_inj h6, jText_inj h7, jText_inj h8, tls_inj h9,
    jText_inj h10, jPtrBool_inj h11]

theorem statsCfg_inj {nil : Bool} {a b : StatsCfg} (h : a.toJson nil = b.toJson nil) : a = b := by
  have h := fields_inj h
  simp only [List.map_cons, List.map_nil, List.cons.injEq, and_true] at h
  obtain ⟨h1, h2, h3⟩ := h
  cases a; cases b
  simp only at h1 h2 h3
  rw [jPtrBool_inj h1, jText_inj h2, jMap_inj (fun _ _ => jMap_inj fun _ _ => jText_inj) h3]

theorem dataConf_inj {nil : Bool} {a b : DataConf} (h : a.toJson nil = b.toJson nil) : a = b := by
  have h := fields_inj h
  simp only [List.map_cons, List.map_nil, List.cons.injEq, and_true] at h
  obtain ⟨h1, h2, h3, h4⟩ := h
  cases a; cases b
  simp only at h1 h2 h3 h4
  rw [jText_inj h1, jText_inj h2, jText_inj h3, jMap_inj (fun _ _ => jText_inj) h4]

theorem trxConf_inj {nil : Bool} {a b : TrxConf} (h : a.toJson nil = b.toJson nil) : a = b := by
  have h := fields_inj h
  simp only [List.map_cons, List.map_nil, List.cons.injEq, and_true] at h
  obtain ⟨h1, h2, h3⟩ := h
  cases a; cases b
  simp only at h1 h2 h3
  rw [jText_inj h1, jText_inj h2, jMap_inj (fun _ _ => dataConf_inj) h3]

theorem cgConf_inj {nil : Bool} {a b : CGConf} (h : a.toJson nil = b.toJson nil) : a = b := by
  have h := fields_inj h
  simp only [List.map_cons, List.map_nil, List.cons.injEq, and_true] at h
  obtain ⟨h1, h2, h3, h4, h5, h6, h7, h8, h9, h10, h11, h12, h13, h14, h15⟩ := h
  cases a; cases b
  simp only [JVal.bool.injEq] at h1 h2 h3 h4 h5 h6 h7 h8 h9 h10 h11 h12 h13 h14 h15
  rw [jText_inj h1, jText_inj h2, h3, jText_inj h4, jText_inj h5, jText_inj h6, jText_inj h7, jText_inj h8, jText_inj h9,
    jText_inj h10, jText_inj h11, jText_inj h12, jText_inj h13, jText_inj h14, jList_inj (fun _ _ => jText_inj) h15]

/-- Two configurations that are encoded alike are the same. -/
theorem stageConf_inj {nil : Bool} {id id' : Text} {n n' : Nat} {test test' : Bool} {a b : StageConf}
    (h : a.toJson nil id n test = b.toJson nil id' n' test') : a = b ∧ id = id' ∧ n = n' ∧ test = test' := by
  have h := fields_inj h
  simp only [List.map_cons, List.map_nil, List.cons.injEq, and_true] at h
  obtain ⟨h1, h2, h3, h4, h5, h6, h7, h8, h9, h10, h11, h12, h13, h14, h15⟩ := h
  have h1 := fields_inj h1
  simp only [List.map_cons, List.map_nil, List.cons.injEq, and_true, JVal.bool.injEq] at h1
  cases a; cases b
  simp only [JVal.bool.injEq, JVal.num.injEq] at h1 h2 h3 h4 h5 h6 h7 h8 h9 h10 h11 h12 h13 h14 h15
  have hn : n = n' := by
    have := congrArg atoiDigits h7
    rw [atoiDigits_decimal, atoiDigits_decimal] at this
    exact Option.some.inj this
  refine ⟨?_, jText_inj h4, hn, h13⟩
  rw [h1.1, jText_inj h1.2, h2, jText_inj h3, jText_inj h5, mysql_inj h6, jMap_inj (fun _ _ => jText_inj) h8, jText_inj h9,
    jText_inj h10, statsCfg_inj h11, jText_inj h12, jList_inj (fun _ _ => trxConf_inj) h14, jList_inj (fun _ _ => cgConf_inj) h15]

/-! ### The value has the type -/

theorem has_text (t : Text) : JTy.str.has (jText t) := by
  simp only [jText, JTy.has]
  exact utf8Text_ok t

theorem has_ptr : ∀ b : Option Bool, JTy.ptrBool.has (jPtrBool b)
  | none => by simp only [jPtrBool, JTy.has]
  | some _ => by simp only [jPtrBool, JTy.has]

theorem has_list {α : Type} {nil : Bool} {f : α → JVal} {t : JTy} {l : List α} (h : ∀ a ∈ l, t.has (f a)) :
    (JTy.list t).has (jList nil f l) := by
  unfold jList
  split
  · simp only [JTy.has]
  · simp only [JTy.has]
    intro v hv
    obtain ⟨a, ha, rfl⟩ := List.mem_map.mp hv
    exact h a ha

theorem has_map {α : Type} {nil : Bool} {f : α → JVal} {t : JTy} {m : TMap α} (hn : (m.map (·.1)).Nodup)
    (h : ∀ e ∈ m, t.has (f e.2)) : (JTy.map t).has (jMap nil f m) := by
  unfold jMap
  split
  · simp only [JTy.has]
  · simp only [JTy.has]
    constructor
    · rw [List.map_map]
      have : (List.map ((fun x : Bytes × JVal => x.1) ∘ fun e : Text × α => (utf8Text e.1, f e.2)) m) =
          (m.map (·.1)).map utf8Text := by
        rw [List.map_map]; rfl
      rw [this]
      exact List.Pairwise.map utf8Text (fun a b hab e => hab (utf8Text_inj e)) hn
    · intro v hv
      obtain ⟨a, ha, rfl⟩ := List.mem_map.mp hv
      exact ⟨utf8Text_ok _, h a ha⟩

/-- The maps of a configuration have distinct keys, as maps do. -/
structure StageConf.IsMap (c : StageConf) : Prop where
  params : (c.params.map (·.1)).Nodup
  report : (c.stats.report.map (·.1)).Nodup
  options : ∀ e ∈ c.stats.report, (e.2.map (·.1)).Nodup
  data : ∀ t ∈ c.trx, (t.data.map (·.1)).Nodup
  dataParams : ∀ t ∈ c.trx, ∀ e ∈ t.data, (e.2.params.map (·.1)).Nodup

theorem has_stage (nil : Bool) (id : Text) (n : Nat) (hn : n < 2 ^ 64) (test : Bool) (c : StageConf) (h : c.IsMap) :
    stageTy.has (c.toJson nil id n test) := by
  have ht := has_text
  have hp := has_ptr
  simp only [StageConf.toJson, stageTy, mysqlTy, MySQLCfg.toJson, tlsTy, TLSCfg.toJson, StatsCfg.toJson, fieldsOf, List.map_cons,
    List.map_nil, JTy.has, hasFields, true_and, and_true]
  simp only [ht, hp, true_and, and_true]
  refine ⟨⟨n, by omega, rfl⟩, has_map h.params fun e _ => ht e.2, has_map h.report fun e he =>
    has_map (h.options e he) fun x _ => ht x.2, has_list fun t htr => ?_, has_list fun g _ => ?_⟩
  · simp only [trxTy, TrxConf.toJson, fieldsOf, List.map_cons, List.map_nil, JTy.has, hasFields, true_and, and_true, ht]
    refine has_map (h.data t htr) fun e he => ?_
    simp only [DataConf.toJson, JTy.has, hasFields, true_and, and_true, ht]
    exact has_map (h.dataParams t htr e he) fun x _ => ht x.2
  · simp only [groupTy, CGConf.toJson, fieldsOf, List.map_cons, List.map_nil, JTy.has, hasFields, true_and, and_true, ht]
    exact has_list fun x _ => ht x

/-- **C127.** The remote instance decodes a value that is the encoding of the configuration of the server, and of no other
configuration, id, number of instances or test flag. -/
theorem C127_conf (nil : Bool) (id : Text) (n : Nat) (hn : n < 2 ^ 64) (test : Bool) (c : StageConf) (h : c.IsMap) :
    ∃ v, unmarshal stageTy (marshal (c.toJson nil id n test)) = some v ∧
      ∀ c' id' n' test', v = c'.toJson nil id' n' test' ↔ c' = c ∧ id' = id ∧ n' = n ∧ test' = test := by
  refine ⟨_, C127_stage _ (has_stage nil id n hn test c h), ?_⟩
  intro c' id' n' test'
  constructor
  · intro e
    exact stageConf_inj e.symm
  · rintro ⟨rfl, rfl, rfl, rfl⟩
    rfl

/-- A stage with texts beyond ASCII, quotes and a line break. -/
def exJsonConf : StageConf :=
  { instances := "2".toList, name := "größe \"1\"\n".toList, mysql := { password := "p\\ä€𝄞".toList, tls := { disable := some false } }
    params := [("a".toList, "1".toList), ("ä".toList, "<2>".toList)]
    stats := { freq := "5s".toList, report := [("stdout".toList, [("each-instance".toList, "true".toList)]), ("csv".toList, [])] }
    trx := [{ file := "x.sql".toList, data := [("d".toList, { generator := "int".toList, params := [("max".toList, "9".toList)] })] }]
    workload := [{ clients := "1".toList, trx := ["x.sql".toList] }] }

example : exJsonConf.IsMap := by
  constructor <;> decide +kernel

example : (unmarshal stageTy (marshal (exJsonConf.toJson true "id".toList 2 false))).map marshal =
    some (marshal (exJsonConf.toJson true "id".toList 2 false)) := by
  decide +kernel

end Finch
