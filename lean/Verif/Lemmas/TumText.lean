import Verif.Model.TumText
import Verif.Spec.TumText
import Mathlib.Tactic.Ring
import Mathlib.Tactic.FieldSimp
/-
Lemmas on the extraction of values from text.
-/
namespace RgbdSlam.TumText

open Spec

theorem separator_isSpace {c : Char} (h : Separator c) : isSpace c = true := by
  rcases h with rfl | rfl | rfl | rfl | rfl <;> decide

theorem not_isSpace {c : Char} (h : ¬ Separator c) (h' : c ≠ '\n') : isSpace c = false := by
  unfold Separator at h
  unfold isSpace
  simp only [not_or] at h
  simp [h, h']

theorem isSpace_iff {c : Char} : isSpace c = true ↔ Separator c ∨ c = '\n' := by
  constructor
  · intro h
    by_contra h'
    rw [not_or] at h'
    rw [not_isSpace h'.1 h'.2] at h
    cases h
  · rintro (h | rfl)
    · exact separator_isSpace h
    · decide

theorem not_separator_newline : ¬ Separator '\n' := by
  unfold Separator
  decide

/-! ## Lines -/

theorem getLines_cons (line : Text) (h : '\n' ∉ line) (text : Text) :
    getLines (line ++ '\n' :: text) = line :: getLines text := by
  induction line with
  | nil => simp [getLines]
  | cons c cs ih =>
    rw [List.mem_cons, not_or] at h
    rw [List.cons_append, getLines, if_neg (Ne.symm h.1), ih h.2]

theorem getLines_last (line : Text) (h : '\n' ∉ line) (hl : line ≠ []) : getLines line = [line] := by
  induction line with
  | nil => exact absurd rfl hl
  | cons c cs ih =>
    rw [List.mem_cons, not_or] at h
    rw [getLines, if_neg (Ne.symm h.1)]
    rcases cs with _ | ⟨d, ds⟩
    · rfl
    · rw [ih h.2 (by simp)]

theorem getLines_flatMap (lines : List Text) (h : ∀ l ∈ lines, '\n' ∉ l) :
    getLines (lines.flatMap (· ++ ['\n'])) = lines := by
  induction lines with
  | nil => rfl
  | cons l ls ih =>
    rw [List.flatMap_cons, List.append_assoc, List.singleton_append, getLines_cons _ (h l (by simp)),
      ih fun l hl => h l (by simp [hl])]

theorem getLines_intercalate (lines : List Text) (h : ∀ l ∈ lines, '\n' ∉ l) :
    getLines (List.intercalate ['\n'] lines) = lines ∨
      ∃ ls, lines = ls ++ [[]] ∧ getLines (List.intercalate ['\n'] lines) = ls := by
  induction lines with
  | nil => exact .inl rfl
  | cons l ls ih =>
    rcases ls with _ | ⟨m, ms⟩
    · have e : List.intercalate ['\n'] [l] = l := by simp [List.intercalate]
      rw [e]
      by_cases hl : l = []
      · exact .inr ⟨[], by simp [hl], by rw [hl]; rfl⟩
      · exact .inl (getLines_last l (h l (by simp)) hl)
    · have e : List.intercalate ['\n'] (l :: m :: ms) = l ++ '\n' :: List.intercalate ['\n'] (m :: ms) := by
        simp [List.intercalate]
      rw [e, getLines_cons _ (h l (by simp))]
      rcases ih fun l hl => h l (by simp [hl]) with h | ⟨ls, h1, h2⟩
      · exact .inl (by rw [h])
      · exact .inr ⟨l :: ls, by rw [h1]; rfl, by rw [h2]⟩

/-- The lines of a written file, but for an empty last line. -/
theorem getLines_written {lines : List Text} (h : ∀ l ∈ lines, '\n' ∉ l) {text : Text} (hw : Written lines text) :
    getLines text = lines ∨ ∃ ls, lines = ls ++ [[]] ∧ getLines text = ls := by
  rcases hw with rfl | rfl
  · exact getLines_intercalate lines h
  · exact .inl (getLines_flatMap lines h)

/-- Every text is written from its lines. -/
theorem written_getLines (text : Text) : (∀ l ∈ getLines text, '\n' ∉ l) ∧ Written (getLines text) text := by
  have key : (∀ l ∈ getLines text, '\n' ∉ l) ∧ (text = (getLines text).flatMap (· ++ ['\n']) ∨
      getLines text ≠ [] ∧ text = List.intercalate ['\n'] (getLines text)) := by
    induction text with
    | nil => exact ⟨by simp [getLines], .inl rfl⟩
    | cons c cs ih =>
      unfold getLines
      split_ifs with hc
      · subst hc
        refine ⟨fun l hl => ?_, ?_⟩
        · rcases List.mem_cons.1 hl with rfl | hl
          · simp
          · exact ih.1 l hl
        · rcases ih.2 with h | ⟨h0, h⟩
          · left
            rw [List.flatMap_cons, ← h]
            rfl
          · right
            refine ⟨by simp, ?_⟩
            obtain ⟨l, ls, e⟩ := List.exists_cons_of_ne_nil h0
            rw [e] at h ⊢
            conv_lhs => rw [h]
            simp [List.intercalate]
      · rcases hg : getLines cs with _ | ⟨l, ls⟩
        · refine ⟨by simpa using Ne.symm hc, ?_⟩
          rcases ih.2 with h | ⟨h0, -⟩
          · rw [hg] at h
            right
            rw [h]
            simp [List.intercalate]
          · exact absurd hg h0
        · rw [hg] at ih
          refine ⟨fun m hm => ?_, ?_⟩
          · rcases List.mem_cons.1 hm with rfl | hm
            · rw [List.mem_cons, not_or]
              exact ⟨Ne.symm hc, ih.1 l (by simp)⟩
            · exact ih.1 m (by simp [hm])
          · rcases ih.2 with h | ⟨-, h⟩
            · left
              conv_lhs => rw [h]
              simp
            · right
              refine ⟨by simp, ?_⟩
              conv_lhs => rw [h]
              rcases ls with _ | ⟨m, ms⟩ <;> simp [List.intercalate]
  exact ⟨key.1, key.2.elim .inr fun h => .inl h.2⟩

/-! ## Digits -/

theorem isDigit_digit : ∀ d : Fin 10, (Char.ofNat (48 + d.val)).isDigit = true := by decide

theorem digit_toNat : ∀ d : Fin 10, (Char.ofNat (48 + d.val)).toNat - 48 = d.val := by decide

theorem isDigit_digits {l : List (Fin 10)} : ∀ c ∈ digits l, c.isDigit = true := by
  intro c hc
  obtain ⟨d, -, rfl⟩ := List.mem_map.1 hc
  exact isDigit_digit d

theorem digit_of_isDigit {c : Char} (h : c.isDigit = true) : ∃ d : Fin 10, c = Char.ofNat (48 + d.val) := by
  unfold Char.isDigit at h
  simp only [ge_iff_le, Bool.and_eq_true, decide_eq_true_eq] at h
  have h1 : 48 ≤ c.toNat := h.1
  have h2 : c.toNat ≤ 57 := h.2
  refine ⟨⟨c.toNat - 48, by omega⟩, ?_⟩
  have : 48 + (c.toNat - 48) = c.toNat := by omega
  simp only [this, Char.ofNat_toNat]

theorem digits_of_isDigit {l : Text} (h : ∀ c ∈ l, c.isDigit = true) : ∃ ds, l = digits ds := by
  induction l with
  | nil => exact ⟨[], rfl⟩
  | cons c cs ih =>
    obtain ⟨ds, rfl⟩ := ih fun c hc => h c (by simp [hc])
    obtain ⟨d, rfl⟩ := digit_of_isDigit (h c (by simp))
    exact ⟨d :: ds, rfl⟩

theorem digitsValue_digits (l : List (Fin 10)) : digitsValue (digits l) = number l := by
  have key : ∀ (l : List (Fin 10)) (n : ℕ), (digits l).foldl (fun n c => 10 * n + (c.toNat - 48)) n =
      number l + 10 ^ l.length * n := by
    intro l
    induction l with
    | nil => intro n; simp [digits, number]
    | cons d ds ih =>
      intro n
      have e : digits (d :: ds) = Char.ofNat (48 + d.val) :: digits ds := rfl
      have e' : number (d :: ds) = number ds + 10 ^ ds.length * d.val := by
        simp [number, Nat.ofDigits_append]
      rw [e, List.foldl_cons, ih, digit_toNat, e', List.length_cons, pow_succ]
      ring
  have := key l 0
  simpa [digitsValue] using this

theorem digits_eq_nil {l : List (Fin 10)} : digits l = [] ↔ l = [] := List.map_eq_nil_iff

theorem length_digits (l : List (Fin 10)) : (digits l).length = l.length := List.length_map _

theorem takeWhile_append {α : Type} {p : α → Bool} {l r : List α} (hl : ∀ a ∈ l, p a = true)
    (hr : ∀ a, r.head? = some a → p a = false) : (l ++ r).takeWhile p = l ∧ (l ++ r).dropWhile p = r := by
  induction l with
  | nil =>
    rcases r with _ | ⟨a, r⟩
    · exact ⟨rfl, rfl⟩
    · have := hr a rfl
      simp [this]
  | cons b l ih =>
    have hb := hl b (by simp)
    obtain ⟨h1, h2⟩ := ih fun a ha => hl a (by simp [ha])
    constructor
    · rw [List.cons_append, List.takeWhile_cons, hb, if_pos rfl, h1]
    · rw [List.cons_append, List.dropWhile_cons, hb, if_pos rfl, h2]

/-! ## Numbers -/

/-- What can follow a number: the end of the line or a separator. -/
def Ends (t : Text) : Prop := ∀ c, t.head? = some c → Separator c

theorem separator_ne {c d : Char} (h : Separator c) (hd : isSpace d = false) : c ≠ d := by
  rintro rfl
  rw [separator_isSpace h] at hd
  cases hd

theorem separator_not_digit {c : Char} (h : Separator c) : c.isDigit = false := by
  rcases h with rfl | rfl | rfl | rfl | rfl <;> decide

theorem scanSign_sign (s : Option Bool) {t : Text} (h : ∀ c, t.head? = some c → c ≠ '-' ∧ c ≠ '+') :
    scanSign (Spec.sign s ++ t) = (decide (s = some true), t) := by
  rcases s with _ | _ | _
  · rcases t with _ | ⟨c, t⟩
    · rfl
    · have := h c rfl
      unfold scanSign Spec.sign
      split
      · rename_i e
        exact absurd (List.cons.inj e).1 this.1
      · rename_i e
        exact absurd (List.cons.inj e).1 this.2
      · rfl
  · rfl
  · rfl

theorem scanExponent_text (e : Option (Bool × Option Bool × List (Fin 10))) (he : ∀ x ∈ e, x.2.2 ≠ []) {t : Text}
    (ht : Ends t) :
    scanExponent (power e ++ t) =
      (some (powerValue e), t) := by
  rcases e with _ | ⟨capital, s, e⟩
  · rcases t with _ | ⟨c, t⟩
    · rfl
    · have hc := ht c rfl
      have h : ¬ (c = 'e' ∨ c = 'E') := by
        rintro (h | h)
        · exact separator_ne hc (by decide) h
        · exact separator_ne hc (by decide) h
      show scanExponent (c :: t) = (some 0, c :: t)
      rw [scanExponent, if_neg h]
  · have hne : e ≠ [] := he _ rfl
    have h : ((if capital then 'E' else 'e') = 'e' ∨ (if capital then 'E' else 'e') = 'E') := by
      cases capital <;> simp
    have hd : ∀ c, (digits e ++ t).head? = some c → c ≠ '-' ∧ c ≠ '+' := by
      intro c hc
      rcases e with _ | ⟨d, e⟩
      · exact absurd rfl hne
      · have : Char.ofNat (48 + d.val) = c := Option.some.inj hc
        have hdig := isDigit_digit d
        rw [this] at hdig
        constructor <;> · rintro rfl; exact absurd hdig (by decide)
    have hs := scanSign_sign s hd
    obtain ⟨h1, h2⟩ := takeWhile_append (p := Char.isDigit) (l := digits e) (r := t) isDigit_digits
      fun c hc => separator_not_digit (ht c hc)
    rw [power, List.cons_append, List.append_assoc, scanExponent, if_pos h]
    simp only [hs, h1, h2, digits_eq_nil, if_neg hne, digitsValue_digits, decide_eq_true_eq, powerValue]

theorem head_exponent (e : Option (Bool × Option Bool × List (Fin 10))) {t : Text} (ht : Ends t) :
    ∀ c, (power e ++ t).head? = some c →
      c.isDigit = false ∧ c ≠ '.' ∧ c ≠ '-' ∧ c ≠ '+' := by
  intro c hc
  rcases e with _ | ⟨capital, s, e⟩
  · have := ht c hc
    exact ⟨separator_not_digit this, separator_ne this (by decide), separator_ne this (by decide), separator_ne this (by decide)⟩
  · have : (if capital then 'E' else 'e') = c := Option.some.inj hc
    subst this
    cases capital <;> decide

theorem scanFraction_text (f : Option (List (Fin 10))) {t : Text}
    (ht : ∀ c, t.head? = some c → c.isDigit = false ∧ c ≠ '.') :
    scanFraction (point f ++ t) = (digits (f.getD []), t) := by
  rcases f with _ | f
  · rcases t with _ | ⟨c, t⟩
    · rfl
    · have := (ht c rfl).2
      show scanFraction (c :: t) = ([], c :: t)
      unfold scanFraction
      split
      · rename_i e
        exact absurd (List.cons.inj e).1 this
      · rfl
  · obtain ⟨h1, h2⟩ := takeWhile_append (p := Char.isDigit) (l := digits f) (r := t) isDigit_digits
      fun c hc => (ht c hc).1
    show ((digits f ++ t).takeWhile Char.isDigit, (digits f ++ t).dropWhile Char.isDigit) = _
    rw [h1, h2]
    rfl

/-- A written number is read, whatever follows it. -/
theorem scanNumber_text {n : Numeral} (hn : n.Valid) {t : Text} (ht : Ends t) :
    scanNumber (n.text ++ t) = (some n.value, t) := by
  have hexp := scanExponent_text n.exponent hn.exponent ht
  have hhead := head_exponent n.exponent ht
  have hfrac := scanFraction_text n.frac fun c hc => ⟨(hhead c hc).1, (hhead c hc).2.1⟩
  have hp : ∀ c, (point n.frac ++ (power n.exponent ++ t)).head? = some c →
      c.isDigit = false ∧ c ≠ '-' ∧ c ≠ '+' := by
    intro c hc
    rcases hf : n.frac with _ | f
    · rw [hf] at hc
      exact ⟨(hhead c hc).1, (hhead c hc).2.2⟩
    · rw [hf] at hc
      obtain rfl : '.' = c := Option.some.inj hc
      decide
  obtain ⟨h1, h2⟩ := takeWhile_append (p := Char.isDigit) (l := digits n.int) isDigit_digits
    fun c hc => (hp c hc).1
  have hsign : scanSign (Spec.sign n.sign ++ (digits n.int ++ (point n.frac ++ (power n.exponent ++ t)))) =
      (decide (n.sign = some true), digits n.int ++ (point n.frac ++ (power n.exponent ++ t))) := by
    refine scanSign_sign _ fun c hc => ?_
    rcases hi : n.int with _ | ⟨d, ds⟩
    · rw [hi] at hc
      exact (hp c hc).2
    · rw [hi] at hc
      have : Char.ofNat (48 + d.val) = c := Option.some.inj hc
      have hdig := isDigit_digit d
      rw [this] at hdig
      constructor <;> · rintro rfl; exact absurd hdig (by decide)
  have hm : ¬ (digits n.int = [] ∧ digits (n.frac.getD []) = []) := by
    rw [digits_eq_nil, digits_eq_nil]
    rintro ⟨h1, h2⟩
    rcases hn.mantissa with h | h
    · exact h h1
    · exact h h2
  have e : n.text ++ t = Spec.sign n.sign ++ (digits n.int ++ (point n.frac ++ (power n.exponent ++ t))) := by
    simp only [Numeral.text, List.append_assoc]
  rw [e]
  unfold scanNumber
  simp only [hsign, h1, h2, hfrac, if_neg hm, hexp, Option.map_some, digitsValue_digits, length_digits,
    decide_eq_true_eq]
  congr 2
  unfold Numeral.value
  split_ifs <;> ring

theorem takeWhile_digits (t : Text) : ∃ ds, t.takeWhile Char.isDigit = digits ds :=
  digits_of_isDigit fun _ hc => (List.all_eq_true.1 (List.all_takeWhile (l := t) (p := Char.isDigit))) _ hc

theorem scanSign_inv (t : Text) : ∃ s, t = Spec.sign s ++ (scanSign t).2 ∧ (scanSign t).1 = decide (s = some true) := by
  unfold scanSign
  split
  · exact ⟨some true, rfl, rfl⟩
  · exact ⟨some false, rfl, rfl⟩
  · exact ⟨none, rfl, rfl⟩

theorem scanFraction_inv (t : Text) : ∃ f, t = point f ++ (scanFraction t).2 ∧ (scanFraction t).1 = digits (f.getD []) := by
  unfold scanFraction
  split
  · rename_i t
    obtain ⟨ds, h⟩ := takeWhile_digits t
    refine ⟨some ds, ?_, h⟩
    show _ = '.' :: (digits ds ++ _)
    rw [← h, List.takeWhile_append_dropWhile]
  · exact ⟨none, rfl, rfl⟩

theorem scanExponent_inv {t r : Text} {x : ℤ} (h : scanExponent t = (some x, r)) :
    ∃ e, (∀ y ∈ e, y.2.2 ≠ []) ∧ t = power e ++ r ∧ x = powerValue e := by
  rcases t with _ | ⟨c, t⟩
  · obtain ⟨h1, h2⟩ := Prod.mk.inj h
    exact ⟨none, by simp, by rw [← h2]; rfl, (Option.some.inj h1).symm⟩
  · rw [scanExponent] at h
    split_ifs at h with hc
    · obtain ⟨s, hs, hs'⟩ := scanSign_inv t
      obtain ⟨ds, hd⟩ := takeWhile_digits (scanSign t).2
      simp only [hd, hs', digitsValue_digits, decide_eq_true_eq] at h
      split_ifs at h with hnil hneg
      · obtain ⟨h1, h2⟩ := Prod.mk.inj h
        cases h1
      all_goals
        obtain ⟨h1, h2⟩ := Prod.mk.inj h
        refine ⟨some (decide (c = 'E'), s, ds), ?_, ?_, ?_⟩
        · intro y hy
          obtain rfl := Option.mem_some_iff.1 hy
          exact fun h => hnil (digits_eq_nil.2 h)
        · have e : (if decide (c = 'E') = true then 'E' else 'e') = c := by
            rcases hc with rfl | rfl <;> decide
          rw [power, e, ← h2, List.cons_append, List.append_assoc, ← hd, List.takeWhile_append_dropWhile, ← hs]
        · rw [powerValue]
          simp only [hneg, if_true, if_false]
          exact (Option.some.inj h1).symm
    · obtain ⟨h1, h2⟩ := Prod.mk.inj h
      exact ⟨none, by simp, by rw [← h2]; rfl, (Option.some.inj h1).symm⟩

/-- What is read as a number is written. -/
theorem scanNumber_inv {t r : Text} {v : ℚ} (h : scanNumber t = (some v, r)) :
    ∃ n : Numeral, n.Valid ∧ t = n.text ++ r ∧ v = n.value := by
  obtain ⟨s, hs, hs'⟩ := scanSign_inv t
  obtain ⟨int, hi⟩ := takeWhile_digits (scanSign t).2
  obtain ⟨f, hf, hf'⟩ := scanFraction_inv ((scanSign t).2.dropWhile Char.isDigit)
  unfold scanNumber at h
  dsimp only at h
  by_cases h0 : (scanSign t).2.takeWhile Char.isDigit = [] ∧
      (scanFraction ((scanSign t).2.dropWhile Char.isDigit)).1 = []
  · rw [if_pos h0] at h
    cases (Prod.mk.inj h).1
  rw [if_neg h0] at h
  obtain ⟨h1, h2⟩ := Prod.mk.inj h
  obtain ⟨x, hx, hv⟩ := Option.map_eq_some_iff.1 h1
  obtain ⟨e, he, he', hx'⟩ := scanExponent_inv (t := (scanFraction ((scanSign t).2.dropWhile Char.isDigit)).2)
    (Prod.ext hx h2)
  refine ⟨⟨s, int, f, e⟩, ⟨?_, he⟩, ?_, ?_⟩
  · rw [hi, hf', digits_eq_nil, digits_eq_nil, not_and_or] at h0
    exact h0
  · show t = Spec.sign s ++ digits int ++ point f ++ power e ++ r
    rw [List.append_assoc, ← he', List.append_assoc, ← hf, ← hi, List.append_assoc, List.takeWhile_append_dropWhile,
      ← hs]
  · rw [← hv, hs', hi, hf', digitsValue_digits, digitsValue_digits, length_digits, hx']
    unfold Numeral.value
    simp only [decide_eq_true_eq]
    split_ifs <;> ring

theorem numeral_head {n : Numeral} (hn : n.Valid) : ∃ c l, n.text = c :: l ∧ isSpace c = false ∧ c ≠ '#' := by
  unfold Numeral.text
  rcases n.sign with _ | _ | _
  · rcases hi : n.int with _ | ⟨d, ds⟩
    · rcases hf : n.frac with _ | f
      · rcases hn.mantissa with h | h
        · exact absurd hi h
        · rw [hf] at h
          exact absurd rfl h
      · exact ⟨'.', _, rfl, by decide, by decide⟩
    · refine ⟨Char.ofNat (48 + d.val), _, rfl, ?_, ?_⟩
      · exact (by decide : ∀ d : Fin 10, isSpace (Char.ofNat (48 + d.val)) = false) d
      · exact (by decide : ∀ d : Fin 10, Char.ofNat (48 + d.val) ≠ '#') d
  · exact ⟨'+', _, rfl, by decide, by decide⟩
  · exact ⟨'-', _, rfl, by decide, by decide⟩

theorem numeral_newline (n : Numeral) : '\n' ∉ n.text := by
  have hs : ∀ s, '\n' ∉ Spec.sign s := by
    intro s
    rcases s with _ | _ | _ <;> simp [Spec.sign]
  have hd : ∀ l, '\n' ∉ digits l := fun l h => absurd (isDigit_digits _ h) (by decide)
  have hp : ∀ f, '\n' ∉ point f := by
    intro f
    rcases f with _ | f
    · simp [point]
    · simp [point, hd]
  have he : ∀ e, '\n' ∉ power e := by
    intro e
    rcases e with _ | ⟨capital, s, e⟩
    · simp [power]
    · cases capital <;> simp [power, hd, hs]
  simp [Numeral.text, hs, hd, hp, he]

/-! ## Extraction -/

theorem skip_spaces {b t : Text} (hb : ∀ c ∈ b, Separator c) (ht : ∀ c, t.head? = some c → isSpace c = false) :
    (b ++ t).dropWhile isSpace = t :=
  (takeWhile_append (fun c hc => separator_isSpace (hb c hc)) ht).2

theorem extractNumber_text {b : Text} (hb : ∀ c ∈ b, Separator c) {n : Numeral} (hn : n.Valid) {t : Text} (ht : Ends t)
    (old : Option ℚ) : extractNumber ⟨b ++ (n.text ++ t), false⟩ old = (some n.value, ⟨t, false⟩) := by
  obtain ⟨c, l, e, hc, -⟩ := numeral_head hn
  have hskip : (b ++ (n.text ++ t)).dropWhile isSpace = n.text ++ t := by
    refine skip_spaces hb fun d hd => ?_
    rw [e] at hd
    rw [← Option.some.inj hd]
    exact hc
  have hs := scanNumber_text hn ht
  unfold extractNumber
  rw [if_neg (by simp), hskip]
  rw [e, List.cons_append] at hs ⊢
  simp only [hs]

theorem extractWord_text {b : Text} (hb : ∀ c ∈ b, Separator c) {w : Text} (hw : Word w) {t : Text} (ht : Ends t)
    (old : String) : extractWord ⟨b ++ (w ++ t), false⟩ old = (String.ofList w, ⟨t, false⟩) := by
  have hns : ∀ c ∈ w, isSpace c = false := fun c hc => not_isSpace (hw.2 c hc).1 (hw.2 c hc).2
  obtain ⟨c, l, e⟩ := List.exists_cons_of_ne_nil hw.1
  have hskip : (b ++ (w ++ t)).dropWhile isSpace = w ++ t := by
    refine skip_spaces hb fun d hd => ?_
    rw [e] at hd
    rw [← Option.some.inj hd]
    exact hns c (by simp [e])
  obtain ⟨h1, h2⟩ := takeWhile_append (p := fun c => !isSpace c) (l := w) (r := t) (fun c hc => by simp [hns c hc])
    fun c hc => by simp [separator_isSpace (ht c hc)]
  unfold extractWord
  rw [if_neg (by simp), hskip]
  rw [e, List.cons_append] at h1 h2 ⊢
  simp only [h1, h2]

theorem skip_all {b : Text} (hb : ∀ c ∈ b, Separator c) : b.dropWhile isSpace = [] := by
  have := skip_spaces (t := []) hb (by simp)
  simpa using this

theorem extractNumber_blank {b : Text} (hb : ∀ c ∈ b, Separator c) (old : Option ℚ) :
    extractNumber ⟨b, false⟩ old = (old, ⟨[], true⟩) := by
  unfold extractNumber
  rw [if_neg (by simp), skip_all hb]

theorem extractNumber_failed (t : Text) (old : Option ℚ) : extractNumber ⟨t, true⟩ old = (old, ⟨t, true⟩) := rfl

theorem extractWord_failed (t : Text) (old : String) : extractWord ⟨t, true⟩ old = (old, ⟨t, true⟩) := rfl

/-- An extraction that succeeds has read a written number. -/
theorem extractNumber_inv {t : Text} {old : Option ℚ} (h : (extractNumber ⟨t, false⟩ old).2.failed = false) :
    ∃ b n, (∀ c ∈ b, isSpace c = true) ∧ Numeral.Valid n ∧ t = b ++ (n.text ++ (extractNumber ⟨t, false⟩ old).2.rest) ∧
      (extractNumber ⟨t, false⟩ old).1 = some n.value := by
  have hb : ∀ c ∈ t.takeWhile isSpace, isSpace c = true := fun c hc =>
    (List.all_eq_true.1 (List.all_takeWhile (l := t) (p := isSpace))) _ hc
  have ht : t = t.takeWhile isSpace ++ t.dropWhile isSpace := List.takeWhile_append_dropWhile.symm
  unfold extractNumber at h ⊢
  rw [if_neg (by simp)] at h ⊢
  dsimp only at h ⊢
  split at h
  · cases h
  · rename_i u hu
    split at h
    · rename_i v r hs
      obtain ⟨n, hn, e, rfl⟩ := scanNumber_inv hs
      exact ⟨_, n, hb, hn, by rw [← e]; exact ht, rfl⟩
    · cases h

/-- A word that is extracted is written. -/
theorem extractWord_inv {s : Stream} (h : (extractWord s "").1 ≠ "") :
    s.failed = false ∧ ∃ b w, (∀ c ∈ b, isSpace c = true) ∧ w ≠ [] ∧ (∀ c ∈ w, isSpace c = false) ∧
      s.rest = b ++ (w ++ (extractWord s "").2.rest) ∧
      (∀ c, (extractWord s "").2.rest.head? = some c → isSpace c = true) ∧ (extractWord s "").1 = String.ofList w ∧
      (extractWord s "").2.failed = false := by
  obtain ⟨t, failed⟩ := s
  cases failed with
  | true => exact absurd rfl h
  | false =>
    refine ⟨rfl, ?_⟩
    have hb : ∀ c ∈ t.takeWhile isSpace, isSpace c = true := fun c hc =>
      (List.all_eq_true.1 (List.all_takeWhile (l := t) (p := isSpace))) _ hc
    have ht : t = t.takeWhile isSpace ++ t.dropWhile isSpace := List.takeWhile_append_dropWhile.symm
    have hd := List.head?_dropWhile_not isSpace t
    unfold extractWord at h ⊢
    rw [if_neg (by simp)] at h ⊢
    dsimp only at h ⊢
    split at h
    · exact absurd rfl h
    · rename_i u hu
      dsimp only at h ⊢
      refine ⟨t.takeWhile isSpace, (t.dropWhile isSpace).takeWhile fun c => !isSpace c, hb, ?_, ?_, ?_, ?_, rfl, rfl⟩
      · intro h0
        rw [h0] at h
        exact h rfl
      · intro c hc
        have := (List.all_eq_true.1 (List.all_takeWhile (l := t.dropWhile isSpace) (p := fun c => !isSpace c))) _ hc
        simpa using this
      · rw [List.takeWhile_append_dropWhile, ← ht]
      · intro c hc
        have := List.head?_dropWhile_not (fun c => !isSpace c) (t.dropWhile isSpace)
        rw [hc] at this
        simpa using this

end RgbdSlam.TumText
