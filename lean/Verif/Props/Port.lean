import Verif.Model.Config
import Mathlib.Tactic.Common
/-!
C65: adding a default port.
-/
namespace Finch

/-- Spec: the text ends in a colon and a number. -/
def HasPort (s : Text) : Prop :=
  ∃ pre ds : Text, s = pre ++ ':' :: ds ∧ ds ≠ [] ∧ ∀ c ∈ ds, isDigit c

theorem takeWhile_all_append {p : Char → Bool} : ∀ (l r : List Char), (∀ c ∈ l, p c) →
    (r.head?.all fun c => !p c) → (l ++ r).takeWhile p = l ∧ (l ++ r).dropWhile p = r
  | [], r, _, hr => by
    cases r with
    | nil => simp
    | cons c r => simp at hr; simp [hr]
  | a :: l, r, hl, hr => by
    have ih := takeWhile_all_append l r (fun c hc => hl c (List.mem_cons_of_mem _ hc)) hr
    have ha := hl a List.mem_cons_self
    simp [ha, ih]

theorem mem_takeWhile_p {p : Char → Bool} {c : Char} : ∀ l : List Char, c ∈ l.takeWhile p → p c
  | [], h => by simp at h
  | a :: l, h => by
    rw [List.takeWhile_cons] at h
    split at h
    · rename_i ha
      rcases List.mem_cons.mp h with rfl | h
      · exact ha
      · exact mem_takeWhile_p l h
    · simp at h

theorem portRe_iff (s : Text) : portRe s = true ↔ HasPort s := by
  unfold portRe
  constructor
  · intro h
    simp only [Bool.and_eq_true, Bool.not_eq_true', beq_iff_eq] at h
    obtain ⟨h1, h2⟩ := h
    have hsplit := List.takeWhile_append_dropWhile (p := isDigit) (l := s.reverse)
    cases hd : s.reverse.dropWhile isDigit with
    | nil => rw [hd] at h2; cases h2
    | cons c rest =>
      rw [hd] at h2 hsplit
      cases h2
      refine ⟨rest.reverse, (s.reverse.takeWhile isDigit).reverse, ?_, ?_, ?_⟩
      · have := congrArg List.reverse hsplit
        simp at this
        exact this.symm
      · intro h
        rw [List.reverse_eq_nil_iff] at h
        rw [h] at h1; cases h1
      · intro c hc
        exact mem_takeWhile_p _ (List.mem_reverse.mp hc)
  · rintro ⟨pre, ds, rfl, hne, hd⟩
    have hrev : (pre ++ ':' :: ds).reverse = ds.reverse ++ (':' :: pre.reverse) := by simp
    have := takeWhile_all_append (p := isDigit) ds.reverse (':' :: pre.reverse)
      (fun c hc => hd c (List.mem_reverse.mp hc)) (by simp [isDigit])
    simp only [hrev, this]
    simp [hne]

/-- **C65.** An address with a port is not changed. -/
theorem C65_port_kept (s p : Text) (h : HasPort s) : withPort s p = s := by
  simp [withPort, (portRe_iff s).mpr h]

/-- **C65.** Any other address gets exactly a colon and the port appended. -/
theorem C65_port_added (s p : Text) (h : ¬ HasPort s) : withPort s p = s ++ ':' :: p := by
  have : portRe s = false := by
    cases hp : portRe s
    · rfl
    · exact absurd ((portRe_iff s).mp hp) h
  simp [withPort, this]

/-- **C65.** With a numeric port the result always has a port... -/
theorem C65_has_port (s p : Text) (hne : p ≠ []) (hp : ∀ c ∈ p, isDigit c) : HasPort (withPort s p) := by
  by_cases h : HasPort s
  · rw [C65_port_kept s p h]; exact h
  · rw [C65_port_added s p h]; exact ⟨s, p, rfl, hne, hp⟩

/-- **C65.** ...so that adding a port again (the same or another) changes nothing. -/
theorem C65_idempotent (s p q : Text) (hne : p ≠ []) (hp : ∀ c ∈ p, isDigit c) :
    withPort (withPort s p) q = withPort s p :=
  C65_port_kept _ q (C65_has_port s p hne hp)

example : HasPort "db.example.com:3306".toList :=
  ⟨"db.example.com".toList, "3306".toList, by decide, by decide, by decide⟩

example : ¬ HasPort "db:x".toList ∧ withPort "db:x".toList "33075".toList = "db:x:33075".toList ∧
    withPort "db:80".toList "33075".toList = "db:80".toList := by
  refine ⟨?_, by decide, by decide⟩
  rw [← portRe_iff]; decide

/-- The last group of a bare IPv6 address is taken for a port: no port is added. (The code supports
IPv6 addresses only in brackets.) -/
theorem C65_ipv6_taken_for_port : withPort "fe80::1".toList "33075".toList = "fe80::1".toList ∧
    withPort "[fe80::1]".toList "33075".toList = "[fe80::1]:33075".toList := by decide

end Finch
