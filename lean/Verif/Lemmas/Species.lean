import Verif.Model.Species
import Verif.Spec.Elements
import Verif.Lemmas.Extract.Run

/-! # Parsing of element names -/

namespace Verif.Species
open Verif.MACE Verif.Spec Verif.Extract

theorem digitsFrom_digits {l : List Char} (h : ∀ c ∈ l, c.isDigit = true) (acc : ℕ) :
    digitsFrom acc l = some (Nat.ofDigitChars 10 l acc) := by
  induction l generalizing acc with
  | nil => rw [digitsFrom.eq_def]; simp
  | cons c cs ih =>
    rw [digitsFrom.eq_def]
    simp only [h c List.mem_cons_self, if_true]
    rw [ih (fun d hd => h d (List.mem_cons_of_mem _ hd)), Nat.ofDigitChars_cons]
    rfl

theorem isSpace_of_digit {c : Char} (h : c.isDigit = true) : isSpace c = false := by
  rw [Char.isDigit_iff_toNat] at h
  have h1 : '0'.toNat = 48 := rfl
  have h2 : '9'.toNat = 57 := rfl
  unfold isSpace
  simp
  omega

theorem digit_of_space {c : Char} (h : isSpace c = true) : c.isDigit = false := by
  by_contra hh
  simp only [Bool.not_eq_false] at hh
  rw [isSpace_of_digit hh] at h
  cases h

theorem strip_digits {l : List Char} (h : ∀ c ∈ l, c.isDigit = true) : strip l = l := by
  have key : ∀ l : List Char, (∀ c ∈ l, c.isDigit = true) → l.dropWhile isSpace = l := by
    intro l h
    cases l with
    | nil => rfl
    | cons c cs => simp [List.dropWhile, isSpace_of_digit (h c List.mem_cons_self)]
  unfold strip
  rw [key l h, key _ (fun c hc => h c (List.mem_reverse.mp hc)), List.reverse_reverse]

theorem pyInt_repr (n : ℕ) : pyInt (toString n) = some (n : ℤ) := by
  have hd : ∀ c ∈ Nat.toDigits 10 n, c.isDigit = true := fun c hc => Nat.isDigit_of_mem_toDigits (by norm_num) (by norm_num) hc
  have e : (toString n).toList = Nat.toDigits 10 n := Nat.toList_repr
  unfold pyInt
  rw [e, strip_digits hd]
  have hv := Nat.ofDigitChars_ten_toDigits (n := n)
  cases hl : Nat.toDigits 10 n with
  | nil => exact absurd hl Nat.toDigits_ne_nil
  | cons c cs =>
    rw [hl] at hd hv
    have hc := hd c List.mem_cons_self
    have n1 : c ≠ '-' := by rintro rfl; exact absurd hc (by decide)
    have n2 : c ≠ '+' := by rintro rfl; exact absurd hc (by decide)
    simp only [n1, n2, if_false, pyNat, hc, if_true]
    rw [digitsFrom_digits (fun d hd' => hd d (List.mem_cons_of_mem _ hd'))]
    rw [Nat.ofDigitChars_cons] at hv
    rw [show 10 * 0 + (c.toNat - '0'.toNat) = c.toNat - 48 from by simp] at hv
    rw [hv]
    rfl

theorem parse_repr (n : ℕ) : parse (.text (toString n)) = some (n : ℤ) := by
  show (match pyInt (toString n) with | some z => some z | none => symbolIndex (toString n)) = _
  rw [pyInt_repr]

theorem parse_symbol {s : String} {z : ℕ} (h : (s, z) ∈ elements) : parse (.text s) = some (z : ℤ) := by
  have : elements.all (fun p => decide (parse (.text p.1) = some (p.2 : ℤ))) = true := by decide +kernel
  exact of_decide_eq_true (List.all_eq_true.mp this (s, z) h)

/-! ## Nothing else is read as a number -/

theorem digitsFrom_some {l : List Char} {acc m : ℕ} (h : digitsFrom acc l = some m) :
    (∀ c ∈ l, c.isDigit = true ∨ c = '_') ∧ m = Nat.ofDigitChars 10 (l.filter Char.isDigit) acc := by
  induction hn : l.length using Nat.strong_induction_on generalizing l acc with
  | _ n ih =>
    cases l with
    | nil =>
      rw [digitsFrom.eq_def] at h
      simp at h
      simp [h]
    | cons c cs =>
      rw [digitsFrom.eq_def] at h
      simp only at h
      by_cases hc : c.isDigit = true
      · rw [if_pos hc] at h
        obtain ⟨h1, h2⟩ := ih cs.length (by simp at hn; omega) h rfl
        refine ⟨fun d hd => ?_, ?_⟩
        · rcases List.mem_cons.mp hd with rfl | hd
          · exact Or.inl hc
          · exact h1 d hd
        · rw [List.filter_cons_of_pos hc, Nat.ofDigitChars_cons, h2]
          rfl
      · rw [if_neg hc] at h
        by_cases hu : c = '_'
        · rw [if_pos hu] at h
          cases cs with
          | nil => cases h
          | cons d ds =>
            simp only at h
            by_cases hd : d.isDigit = true
            · rw [if_pos hd] at h
              obtain ⟨h1, h2⟩ := ih ds.length (by simp at hn; omega) h rfl
              refine ⟨fun e he => ?_, ?_⟩
              · rcases List.mem_cons.mp he with rfl | he
                · exact Or.inr hu
                · rcases List.mem_cons.mp he with rfl | he
                  · exact Or.inl hd
                  · exact h1 e he
              · rw [List.filter_cons_of_neg hc, List.filter_cons_of_pos hd, Nat.ofDigitChars_cons, h2]
                rfl
            · rw [if_neg hd] at h
              cases h
        · rw [if_neg hu] at h
          cases h

theorem pyNat_some {l : List Char} {m : ℕ} (h : pyNat l = some m) :
    (∀ c ∈ l, c.isDigit = true ∨ c = '_') ∧ (∃ c ∈ l, c.isDigit = true) ∧ m = Nat.ofDigitChars 10 (l.filter Char.isDigit) 0 := by
  cases l with
  | nil => cases h
  | cons c cs =>
    simp only [pyNat] at h
    by_cases hc : c.isDigit = true
    · rw [if_pos hc] at h
      obtain ⟨h1, h2⟩ := digitsFrom_some h
      refine ⟨fun d hd => ?_, ⟨c, List.mem_cons_self, hc⟩, ?_⟩
      · rcases List.mem_cons.mp hd with rfl | hd
        · exact Or.inl hc
        · exact h1 d hd
      · rw [List.filter_cons_of_pos hc, Nat.ofDigitChars_cons, h2]
        rw [show 10 * 0 + (c.toNat - '0'.toNat) = c.toNat - 48 from by simp]
    · rw [if_neg hc] at h
      cases h

theorem dropWhile_split (p : Char → Bool) (l : List Char) : ∃ a, l = a ++ l.dropWhile p ∧ ∀ c ∈ a, p c = true :=
  ⟨l.takeWhile p, List.takeWhile_append_dropWhile.symm, fun c hc => List.all_eq_true.mp List.all_takeWhile c hc⟩

theorem strip_split (l : List Char) : ∃ a b, l = a ++ strip l ++ b ∧ (∀ c ∈ a, isSpace c = true) ∧ ∀ c ∈ b, isSpace c = true := by
  obtain ⟨a, h1, h2⟩ := dropWhile_split isSpace l
  obtain ⟨b, h3, h4⟩ := dropWhile_split isSpace (l.dropWhile isSpace).reverse
  refine ⟨a, b.reverse, ?_, h2, fun c hc => h4 c (List.mem_reverse.mp hc)⟩
  unfold strip
  have := congrArg List.reverse h3
  rw [List.reverse_reverse, List.reverse_append] at this
  rw [List.append_assoc, ← this]
  exact h1

theorem filter_strip (l : List Char) : (strip l).filter Char.isDigit = l.filter Char.isDigit := by
  obtain ⟨a, b, h1, h2, h3⟩ := strip_split l
  conv_rhs => rw [h1]
  have e : ∀ a : List Char, (∀ c ∈ a, isSpace c = true) → a.filter Char.isDigit = [] := fun a ha =>
    List.filter_eq_nil_iff.mpr (fun c hc => by simp [digit_of_space (ha c hc)])
  rw [List.filter_append, List.filter_append, e a h2, e b h3]
  simp

/-- What `int(s)` accepts. -/
theorem pyInt_some {s : String} {z : ℤ} (h : pyInt s = some z) :
    (∀ c ∈ s.toList, c.isDigit = true ∨ c = '_' ∨ isSpace c = true ∨ c = '+' ∨ c = '-') ∧ (∃ c ∈ s.toList, c.isDigit = true) ∧
      z.natAbs = Nat.ofDigitChars 10 (s.toList.filter Char.isDigit) 0 ∧ ('-' ∈ s.toList → z ≤ 0) ∧ ('-' ∉ s.toList → 0 ≤ z) := by
  have hf := filter_strip s.toList
  obtain ⟨a, b, h1, h2, h3⟩ := strip_split s.toList
  unfold pyInt at h
  cases hs : strip s.toList with
  | nil => rw [hs] at h; cases h
  | cons c cs =>
    rw [hs] at h h1 hf
    simp only at h
    have hmem : ∀ d, d ∈ s.toList ↔ d ∈ a ∨ d = c ∨ d ∈ cs ∨ d ∈ b := by
      intro d
      rw [h1]
      simp only [List.mem_append, List.mem_cons]
      tauto
    have hsp : isSpace '-' = false := by decide
    have hna : '-' ∉ a := fun hh => by rw [h2 _ hh] at hsp; cases hsp
    have hnb : '-' ∉ b := fun hh => by rw [h3 _ hh] at hsp; cases hsp
    have hdash : ∀ l : List Char, (∀ d ∈ l, d.isDigit = true ∨ d = '_') → '-' ∉ l := by
      intro l hl hh
      rcases hl _ hh with e | e
      · exact absurd e (by decide)
      · exact absurd e (by decide)
    by_cases hm : c = '-'
    · rw [if_pos hm] at h
      obtain ⟨m, h4, rfl⟩ := Option.map_eq_some_iff.mp h
      obtain ⟨k1, ⟨d, k2, k3⟩, k4⟩ := pyNat_some h4
      refine ⟨fun d hd => ?_, ⟨d, (hmem d).mpr (Or.inr (Or.inr (Or.inl k2))), k3⟩, ?_, fun _ => by simp, fun hn => ?_⟩
      · rcases (hmem d).mp hd with hd | hd | hd | hd
        · exact Or.inr (Or.inr (Or.inl (h2 d hd)))
        · exact Or.inr (Or.inr (Or.inr (Or.inr (hd.trans hm))))
        · rcases k1 d hd with e | e <;> tauto
        · exact Or.inr (Or.inr (Or.inl (h3 d hd)))
      · rw [← hf, List.filter_cons_of_neg (by rw [hm]; decide), ← k4]
        simp
      · exact absurd ((hmem '-').mpr (Or.inr (Or.inl hm.symm))) hn
    · rw [if_neg hm] at h
      by_cases hp : c = '+'
      · rw [if_pos hp] at h
        obtain ⟨m, h4, rfl⟩ := Option.map_eq_some_iff.mp h
        obtain ⟨k1, ⟨d, k2, k3⟩, k4⟩ := pyNat_some h4
        refine ⟨fun d hd => ?_, ⟨d, (hmem d).mpr (Or.inr (Or.inr (Or.inl k2))), k3⟩, ?_, fun hh => ?_, fun hn => by simp⟩
        · rcases (hmem d).mp hd with hd | hd | hd | hd
          · exact Or.inr (Or.inr (Or.inl (h2 d hd)))
          · exact Or.inr (Or.inr (Or.inr (Or.inl (hd.trans hp))))
          · rcases k1 d hd with e | e <;> tauto
          · exact Or.inr (Or.inr (Or.inl (h3 d hd)))
        · rw [← hf, List.filter_cons_of_neg (by rw [hp]; decide), ← k4]
          simp
        · exact absurd hh (by
            rw [hmem]
            rintro (e | e | e | e)
            · exact hna e
            · exact hm e.symm
            · exact hdash cs k1 e
            · exact hnb e)
      · rw [if_neg hp] at h
        obtain ⟨m, h4, rfl⟩ := Option.map_eq_some_iff.mp h
        obtain ⟨k1, ⟨d, k2, k3⟩, k4⟩ := pyNat_some h4
        refine ⟨fun d hd => ?_, ⟨d, (hmem d).mpr (Or.inr ((List.mem_cons.mp k2).imp id Or.inl)), k3⟩, ?_, fun hh => ?_, fun hn => by simp⟩
        · rcases (hmem d).mp hd with hd | hd | hd | hd
          · exact Or.inr (Or.inr (Or.inl (h2 d hd)))
          · rcases k1 d (by rw [hd]; exact List.mem_cons_self) with e | e <;> tauto
          · rcases k1 d (List.mem_cons_of_mem _ hd) with e | e <;> tauto
          · exact Or.inr (Or.inr (Or.inl (h3 d hd)))
        · rw [← hf, ← k4]
          simp
        · exact absurd hh (by
            rw [hmem]
            rintro (e | e | e | e)
            · exact hna e
            · exact hm e.symm
            · exact hdash _ k1 (List.mem_cons_of_mem _ e)
            · exact hnb e)

theorem symbolIndex_some {s : String} {z : ℤ} (h : symbolIndex s = some z) : ∃ k : ℕ, chemicalSymbols[k]? = some s ∧ z = (k : ℤ) := by
  obtain ⟨k, hk, rfl⟩ := Option.map_eq_some_iff.mp h
  refine ⟨k, ?_, rfl⟩
  rw [List.idxOf?, List.findIdx?_eq_some_iff_getElem] at hk
  obtain ⟨h1, h2, -⟩ := hk
  rw [List.getElem?_eq_getElem h1]
  simpa using h2

theorem symbols_no_dash : ∀ s ∈ chemicalSymbols, '-' ∉ s.toList := by
  have : chemicalSymbols.all (fun s => !s.toList.contains '-') = true := by decide +kernel
  intro s hs
  have := List.all_eq_true.mp this s hs
  simpa using this

/-- A text read as a positive number has no minus sign and is not empty. -/
theorem no_dash {s : String} {z : ℤ} (h : parse (.text s) = some z) (hz : 0 < z) : '-' ∉ s.toList := by
  have h' : (match pyInt s with | some z => some z | none => symbolIndex s) = some z := h
  cases hp : pyInt s with
  | none =>
    rw [hp] at h'
    obtain ⟨k, hk, -⟩ := symbolIndex_some h'
    exact symbols_no_dash s (List.mem_of_getElem? hk)
  | some w =>
    rw [hp] at h'
    cases h'
    intro hd
    have := (pyInt_some hp).2.2.2.1 hd
    omega

/-! ## The list -/

theorem mapM_iff {α β : Type} {f : α → Option β} {l : List α} {r : List β} : l.mapM f = some r ↔ l.map f = r.map some := by
  induction l generalizing r with
  | nil => cases r <;> simp
  | cons a l ih =>
    rw [List.mapM_cons]
    cases ha : f a with
    | none =>
      cases r with
      | nil => simp
      | cons b r => simp [ha]
    | some b =>
      cases r with
      | nil =>
        simp
        cases l.mapM f <;> simp
      | cons c r =>
        simp only [List.map_cons, List.cons.injEq, ha, Option.some.injEq, ← ih]
        cases l.mapM f <;> simp

theorem mapM_none {α β : Type} {f : α → Option β} {l : List α} : l.mapM f = none ↔ ∃ a ∈ l, f a = none := by
  induction l with
  | nil => simp
  | cons a l ih =>
    rw [List.mapM_cons]
    cases ha : f a with
    | none => simp [ha]
    | some b =>
      cases hm : l.mapM f with
      | none =>
        obtain ⟨x, hx, hf⟩ := ih.mp hm
        simp only [bind, Option.bind, true_iff]
        exact ⟨x, List.mem_cons_of_mem _ hx, hf⟩
      | some r =>
        simp only [bind, Option.bind, pure]
        constructor
        · intro h; cases h
        · rintro ⟨x, hx, hf⟩
          rcases List.mem_cons.mp hx with rfl | hx
          · rw [ha] at hf; cases hf
          · rw [ih.mpr ⟨x, hx, hf⟩] at hm; cases hm

theorem insertionSort_perm {l l' : List ℕ} (h : l.Perm l') : l.insertionSort (· ≤ ·) = l'.insertionSort (· ≤ ·) :=
  List.Perm.eq_of_pairwise' (List.pairwise_insertionSort _ _) (List.pairwise_insertionSort _ _)
    ((List.perm_insertionSort _ _).trans (h.trans (List.perm_insertionSort _ _).symm))

section
variable {M : Torch} {n : ℕ} {der : List ℝ → List ℝ} {inv : ℕ → (ℕ → ℕ → ℝ) → Option (ℕ → ℕ → ℝ)}

theorem extract_perm {l l' : List ℕ} (h : l.Perm l') : extract n der inv l M = extract n der inv l' M := by
  unfold extract
  rw [insertionSort_perm h]
  have : l = [] ↔ l' = [] := ⟨fun e => List.Perm.eq_nil (e ▸ h.symm), fun e => List.Perm.eq_nil (e ▸ h)⟩
  simp only [this]

theorem extractFor_perm {l l' : List Sp} (h : (l.map parse).Perm (l'.map parse)) :
    extractFor n der inv (some l) M = extractFor n der inv (some l') M := by
  unfold extractFor
  simp only [Option.getD_some]
  cases h1 : l.mapM parse with
  | none =>
    obtain ⟨a, ha, hf⟩ := mapM_none.mp h1
    have : (none : Option ℤ) ∈ l'.map parse := h.subset (List.mem_map.mpr ⟨a, ha, hf⟩)
    obtain ⟨b, hb, hf'⟩ := List.mem_map.mp this
    rw [mapM_none.mpr ⟨b, hb, hf'⟩]
  | some r =>
    cases h2 : l'.mapM parse with
    | none =>
      obtain ⟨a, ha, hf⟩ := mapM_none.mp h2
      have : (none : Option ℤ) ∈ l.map parse := h.symm.subset (List.mem_map.mpr ⟨a, ha, hf⟩)
      obtain ⟨b, hb, hf'⟩ := List.mem_map.mp this
      rw [mapM_none.mpr ⟨b, hb, hf'⟩] at h1
      cases h1
    | some r' =>
      rw [mapM_iff] at h1 h2
      rw [h1, h2] at h
      have hp : r.Perm r' := (List.map_perm_map_iff (Option.some_injective _)).mp h
      simp only [bind, Option.bind]
      rw [extract_perm (hp.map Int.toNat)]
      have : r.all (fun z => decide (0 ≤ z)) = r'.all (fun z => decide (0 ≤ z)) := by
        rw [Bool.eq_iff_iff, List.all_eq_true, List.all_eq_true]
        exact ⟨fun hh x hx => hh x (hp.mem_iff.mpr hx), fun hh x hx => hh x (hp.mem_iff.mp hx)⟩
      rw [this]

theorem extractFor_nat {l : List Sp} {zs : List ℕ} (h : l.map parse = zs.map (fun (z : ℕ) => some (z : ℤ))) :
    extractFor n der inv (some l) M = extract n der inv zs M := by
  unfold extractFor
  have e : l.mapM parse = some (zs.map (fun (z : ℕ) => (z : ℤ))) := by
    rw [mapM_iff, h, List.map_map]
    rfl
  simp only [Option.getD_some, e, bind, Option.bind]
  rw [if_pos]
  · rw [List.map_map]
    congr 1
    exact List.map_id' _
  · simp

theorem extractFor_some {l : List Sp} {f : File} (h : extractFor n der inv (some l) M = some f) :
    ∃ zs : List ℕ, l.map parse = zs.map (fun (z : ℕ) => some (z : ℤ)) ∧ extract n der inv zs M = some f := by
  unfold extractFor at h
  simp only [Option.getD_some] at h
  cases h1 : l.mapM parse with
  | none => rw [h1] at h; cases h
  | some r =>
    rw [h1] at h
    simp only [bind, Option.bind] at h
    split_ifs at h with hr
    refine ⟨r.map Int.toNat, ?_, h⟩
    rw [mapM_iff.mp h1, List.map_map]
    refine List.map_congr_left fun z hz => ?_
    have := List.all_eq_true.mp hr z hz
    have h0 : 0 ≤ z := by simpa using this
    simp [h0]

end

/-! ## The name of the file -/

theorem parse_ne_empty {z : ℤ} : parse (.text "") ≠ some z := by
  have : parse (.text "") = none := by decide +kernel
  rw [this]
  simp

theorem join_ne_nil {l : List String} (hl : ∀ s ∈ l, s ≠ "") (hn : l ≠ []) : List.intercalate ['-'] (l.map String.toList) ≠ [] := by
  cases l with
  | nil => exact absurd rfl hn
  | cons a l =>
    have ha : a.toList ≠ [] := fun e => hl a List.mem_cons_self (String.toList_eq_nil_iff.mp e)
    cases l with
    | nil => simpa using ha
    | cons b l => simp [List.intercalate_cons_cons, ha]

theorem join_injective {l l' : List String} (h : List.intercalate ['-'] (l.map String.toList) = List.intercalate ['-'] (l'.map String.toList))
    (hl : ∀ s ∈ l, '-' ∉ s.toList ∧ s ≠ "") (hl' : ∀ s ∈ l', '-' ∉ s.toList ∧ s ≠ "") : l = l' := by
  by_cases h1 : l = []
  · by_cases h2 : l' = []
    · rw [h1, h2]
    · refine absurd ?_ (join_ne_nil (fun s hs => (hl' s hs).2) h2)
      rw [← h, h1]
      rfl
  · by_cases h2 : l' = []
    · refine absurd ?_ (join_ne_nil (fun s hs => (hl s hs).2) h1)
      rw [h, h2]
      rfl
    · have e := congrArg (fun x => x.splitOn '-') h
      rw [List.splitOn_intercalate, List.splitOn_intercalate] at e
      · exact List.map_injective_iff.mpr (fun a b hab => String.toList_injective hab) e
      · intro x hx
        obtain ⟨s, hs, rfl⟩ := List.mem_map.mp hx
        exact (hl' s hs).1
      · simpa using h2
      · intro x hx
        obtain ⟨s, hs, rfl⟩ := List.mem_map.mp hx
        exact (hl s hs).1
      · simpa using h1

theorem name_perm {model : List Char} {l l' : List String} (h : cliName model l = cliName model l') (hl : ∀ s ∈ l, '-' ∉ s.toList ∧ s ≠ "")
    (hl' : ∀ s ∈ l', '-' ∉ s.toList ∧ s ≠ "") : l.Perm l' := by
  unfold cliName at h
  have h1 := List.append_cancel_left (List.append_cancel_right h)
  have hp := List.perm_insertionSort (fun s t => strLe s t = true) l
  have hp' := List.perm_insertionSort (fun s t => strLe s t = true) l'
  have key : l.insertionSort (fun s t => strLe s t = true) = l'.insertionSort (fun s t => strLe s t = true) :=
    join_injective h1 (fun s hs => hl s (hp.mem_iff.mp hs)) (fun s hs => hl' s (hp'.mem_iff.mp hs))
  exact hp.symm.trans (key ▸ hp')

end Verif.Species
