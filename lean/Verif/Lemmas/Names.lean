import Verif.Spec.Registry

/-! # Names -/

set_option linter.unusedSimpArgs false
set_option linter.unusedVariables false

namespace V11

theorem letter_iff (c : Char) : c ∈ letters ↔ (65 ≤ c.toNat ∧ c.toNat ≤ 90) ∨ (97 ≤ c.toNat ∧ c.toNat ≤ 122) := by
  constructor
  · revert c; decide
  · intro h
    have : ∀ n < 123, (65 ≤ n ∧ n ≤ 90) ∨ (97 ≤ n ∧ n ≤ 122) → Char.ofNat n ∈ letters := by decide
    have := this c.toNat (by omega) h
    rwa [Char.ofNat_toNat] at this

theorem tail_iff (c : Char) : c ∈ "0123456789_".toList ↔ (48 ≤ c.toNat ∧ c.toNat ≤ 57) ∨ c.toNat = 95 := by
  constructor
  · revert c; decide
  · intro h
    have : ∀ n < 123, (48 ≤ n ∧ n ≤ 57) ∨ n = 95 → Char.ofNat n ∈ "0123456789_".toList := by decide
    have := this c.toNat (by omega) h
    rwa [Char.ofNat_toNat] at this

theorem char_le (a b : Char) : a ≤ b ↔ a.toNat ≤ b.toNat := Iff.rfl

theorem char_eq (a b : Char) : a = b ↔ a.toNat = b.toNat := by
  constructor
  · rintro rfl; rfl
  · intro h
    have := congrArg Char.ofNat h
    rwa [Char.ofNat_toNat, Char.ofNat_toNat] at this

theorem isLetter_iff (c : Char) : isLetter c = true ↔ c ∈ letters := by
  rw [letter_iff]
  unfold isLetter
  simp only [Bool.or_eq_true, Bool.and_eq_true, decide_eq_true_eq, char_le]
  show _ ↔ _
  simp [show 'A'.toNat = 65 from rfl, show 'Z'.toNat = 90 from rfl, show 'a'.toNat = 97 from rfl, show 'z'.toNat = 122 from rfl]

theorem checkChars_ok (cs : List Char) : checkChars cs = .ok () ↔ ∀ x ∈ cs, x ∈ nameChars := by
  induction cs with
  | nil => simp [checkChars]
  | cons c cs ih =>
    have hc : c ∈ nameChars ↔ c = '_' ∨ isLetter c = true ∨ ('0' ≤ c ∧ c ≤ '9') := by
      unfold nameChars
      rw [List.mem_append, tail_iff, isLetter_iff, char_eq c '_', char_le, char_le]
      simp only [show '_'.toNat = 95 from rfl, show '0'.toNat = 48 from rfl, show '9'.toNat = 57 from rfl]
      tauto
    unfold checkChars
    simp only [List.mem_cons, forall_eq_or_imp]
    rw [hc]
    by_cases h1 : c = '_'
    · rw [if_pos h1]; simp [h1, ih]
    · rw [if_neg h1]
      by_cases h2 : isLetter c = true
      · rw [if_pos h2]; simp [h2, ih]
      · rw [if_neg h2]
        by_cases h3 : '0' ≤ c ∧ c ≤ '9'
        · rw [if_pos h3]; simp [h3, ih]
        · rw [if_neg h3]; simp [h1, h2, h3]

theorem checkName_ok (s : List Char) : checkName s = .ok () ↔ IsName s := by
  unfold checkName IsName
  cases s with
  | nil => simp
  | cons c cs =>
    simp only [List.cons.injEq]
    by_cases h1 : c = '_'
    · rw [if_pos h1]
      constructor
      · intro h; cases h
      · rintro ⟨d, ds, ⟨rfl, rfl⟩, h2, -⟩
        subst h1
        exact absurd h2 (by decide)
    · rw [if_neg h1]
      by_cases h2 : isLetter c = true
      · rw [if_pos h2, checkChars_ok]
        constructor
        · intro h
          exact ⟨c, cs, ⟨rfl, rfl⟩, (isLetter_iff c).1 h2, fun x hx => h x (by simp [hx])⟩
        · rintro ⟨d, ds, ⟨rfl, rfl⟩, h3, h4⟩ x hx
          rcases List.mem_cons.1 hx with rfl | hx
          · unfold nameChars; simp [h3]
          · exact h4 x hx
      · rw [if_neg h2]
        constructor
        · intro h; cases h
        · rintro ⟨d, ds, ⟨rfl, rfl⟩, h3, -⟩
          exact absurd ((isLetter_iff _).2 h3) h2

theorem slash_not_name {s : List Char} (h : IsName s) : '/' ∉ s := by
  obtain ⟨c, cs, rfl, h1, h2⟩ := h
  intro hm
  rcases List.mem_cons.1 hm with rfl | hm
  · exact absurd h1 (by decide)
  · exact absurd (h2 _ hm) (by decide)

theorem checkPropName_ok (d n : List Char) : checkPropName d n = .ok () ↔ IsPropName d n := by
  unfold checkPropName IsPropName
  cases h1 : checkName d with
  | error e =>
    have : ¬ IsName d := by rw [← checkName_ok, h1]; simp
    simp only [this, false_and, iff_false]
    intro h; cases h
  | ok x =>
    have hd : IsName d := by rw [← checkName_ok, h1]
    have hs := slash_not_name hd
    show (match n.dropWhile (· ≠ '/') with
      | [] => (.error .badPropName : R Unit)
      | _ :: short => if n.takeWhile (· ≠ '/') ≠ d then (.error .badPropName : R Unit) else checkName short) = .ok () ↔ _
    constructor
    · intro h
      refine ⟨hd, ?_⟩
      split at h
      · cases h
      · rename_i x short e
        split at h
        · cases h
        · rename_i hf
          have hf := not_not.1 hf
          have hx : x = '/' := by
            have := List.head?_dropWhile_not (fun c : Char => decide (c ≠ '/')) n
            rw [e] at this
            simpa using this
          refine ⟨short, ?_, (checkName_ok _).1 h⟩
          have := List.takeWhile_append_dropWhile (p := fun c : Char => decide (c ≠ '/')) (l := n)
          rw [e, hf, hx] at this
          exact this.symm
    · rintro ⟨-, short, rfl, h⟩
      have hall : ∀ c ∈ d, decide (c ≠ '/') = true := by
        intro c hc
        simp only [decide_eq_true_eq]
        rintro rfl
        exact hs hc
      rw [List.dropWhile_append_of_pos hall, List.takeWhile_append_of_pos hall]
      simp only [ne_eq, List.dropWhile_cons, List.takeWhile_cons, decide_not]
      simp [(checkName_ok _).2 h]

end V11
