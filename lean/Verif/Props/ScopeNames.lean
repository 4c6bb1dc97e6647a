import Verif.Model.Prepare
import Verif.Model.Validate
/-!
C01: the scope that is written in a stage file is the scope that data has.
-/
namespace Finch

/-- Spec: the scopes by the names in the documentation (docs/content/data/scope.md). -/
inductive ScopeName : String → Scope → Prop
  | global : ScopeName "global" .global
  | stage : ScopeName "stage" .stage
  | workload : ScopeName "workload" .workload
  | execGroup : ScopeName "exec-group" .execGroup
  | clientGroup : ScopeName "client-group" .clientGroup
  | client : ScopeName "client" .client
  | iter : ScopeName "iter" .iter
  | trx : ScopeName "trx" .trx
  | statement : ScopeName "statement" .statement
  | row : ScopeName "row" .row
  | value : ScopeName "value" .value

theorem scopeName_str (c : Scope) : ScopeName c.str c := by
  cases c
  · exact .global
  · exact .stage
  · exact .workload
  · exact .execGroup
  · exact .clientGroup
  · exact .client
  · exact .iter
  · exact .trx
  · exact .statement
  · exact .row
  · exact .value

/-- **C01, names.** The scope of a data key is the one that its configuration names; any other text names none. -/
theorem C01_scope_names (k : TKey) (c : Scope) : k.key.scope = some c ↔ ScopeName k.scope c := by
  show Scope.ofString? k.scope = some c ↔ _
  generalize k.scope = s
  constructor
  · intro h
    have h1 := List.find?_some h
    have h2 : c.str = s := by simpa using h1
    rw [← h2]
    exact scopeName_str c
  · intro h
    cases h <;> decide +kernel

/-- **C01, accepted names.** A stage file is accepted only with these names, or without a name. -/
theorem C01_accepted_scopes (t : Text) : t ∈ scopeNames ↔ t = [] ∨ ∃ c, ScopeName (String.ofList t) c := by
  constructor
  · intro h
    obtain ⟨s, hs, rfl⟩ := List.mem_map.mp h
    rw [String.ofList_toList]
    simp only [List.mem_cons, List.not_mem_nil, or_false] at hs
    rcases hs with rfl | rfl | rfl | rfl | rfl | rfl | rfl | rfl | rfl | rfl | rfl | rfl
    · exact Or.inl rfl
    · exact Or.inr ⟨_, .global⟩
    · exact Or.inr ⟨_, .stage⟩
    · exact Or.inr ⟨_, .workload⟩
    · exact Or.inr ⟨_, .execGroup⟩
    · exact Or.inr ⟨_, .clientGroup⟩
    · exact Or.inr ⟨_, .client⟩
    · exact Or.inr ⟨_, .iter⟩
    · exact Or.inr ⟨_, .trx⟩
    · exact Or.inr ⟨_, .statement⟩
    · exact Or.inr ⟨_, .row⟩
    · exact Or.inr ⟨_, .value⟩
  · rintro (rfl | ⟨c, h⟩)
    · decide
    · have : t = (String.ofList t).toList := by simp
      rw [this]
      generalize String.ofList t = s at h
      cases h <;> decide +kernel

example (g : GenInfo) : (⟨"@d", "t", 1, 1, -1, "client-group", g⟩ : TKey).key.scope = some .clientGroup :=
  (C01_scope_names _ _).mpr .clientGroup

end Finch
