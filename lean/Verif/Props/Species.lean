import Verif.Lemmas.Species
import Verif.Model.Calculator
import Verif.Props.ExtractExample

/-! # Property theorems: naming elements for the extraction (C99), construction of the ASE calculator (C100) -/

namespace Verif.Props
open Verif.MACE Verif.Spec Verif.Extract Verif.Species Verif.Calculator

/-- An entry of `species` names the element with atomic number `z`. -/
def Names (sp : Sp) (z : ℕ) : Prop := sp = .num z ∨ sp = .text (toString z) ∨ ∃ s, (s, z) ∈ elements ∧ sp = .text s

section
variable {M : Torch} {n : ℕ} {der : List ℝ → List ℝ} {inv : ℕ → (ℕ → ℕ → ℝ) → Option (ℕ → ℕ → ℝ)}

/-- C99: elements may be named by atomic number, its decimal text, or symbol, mixed and in any order: the file is the one for the atomic
numbers.  No list, or an empty one, means all elements of the model. -/
theorem C99_spellings :
    (∀ {species : List Sp} {zs zs' : List ℕ}, List.Forall₂ Names species zs → zs.Perm zs' →
      extractFor n der inv (some species) M = extract n der inv zs' M) ∧
    extractFor n der inv none M = extract n der inv [] M ∧ extractFor n der inv (some []) M = extract n der inv [] M ∧
    extract n der inv [] M = if M.zs = [] then extract n der inv [] M else extract n der inv M.zs M := by
  refine ⟨fun {species zs zs'} h hp => ?_, rfl, rfl, ?_⟩
  · rw [← extract_perm hp]
    refine extractFor_nat ?_
    clear hp
    induction h with
    | nil => rfl
    | cons ha _ ih =>
      rw [List.map_cons, List.map_cons, ih]
      congr 1
      rcases ha with rfl | rfl | ⟨s, hs, rfl⟩
      · rfl
      · exact parse_repr _
      · exact parse_symbol hs
  · split_ifs with h
    · rfl
    · unfold extract
      simp only [h, if_true, if_false]

example : List.Forall₂ Names [.text "O", .num 1, .text "6"] [8, 1, 6] ∧ [8, 1, 6].Perm [1, 6, 8] :=
  ⟨.cons (Or.inr (Or.inr ⟨"O", by decide +kernel, rfl⟩)) (.cons (Or.inl rfl) (.cons (Or.inr (Or.inl rfl)) .nil)), by decide⟩

/-- C99: an entry is either read as a number (digits with single underscores between them, a sign, white space at the ends), or it is one
of ASE's symbols (whose first, for atomic number 0, is "X"). -/
theorem C99_accepted {s : String} {z : ℤ} (h : parse (.text s) = some z) :
    ((∀ c ∈ s.toList, c.isDigit = true ∨ c = '_' ∨ isSpace c = true ∨ c = '+' ∨ c = '-') ∧ (∃ c ∈ s.toList, c.isDigit = true) ∧
      z.natAbs = Nat.ofDigitChars 10 (s.toList.filter Char.isDigit) 0 ∧ ('-' ∈ s.toList → z ≤ 0) ∧ ('-' ∉ s.toList → 0 ≤ z)) ∨
    (s, z) = ("X", 0) ∨ ∃ k : ℕ, (s, k) ∈ elements ∧ z = k := by
  have h' : (match pyInt s with | some z => some z | none => symbolIndex s) = some z := h
  cases hp : pyInt s with
  | some w =>
    rw [hp] at h'
    cases h'
    exact Or.inl (pyInt_some hp)
  | none =>
    rw [hp] at h'
    obtain ⟨k, hk, rfl⟩ := symbolIndex_some h'
    refine Or.inr ?_
    have key : chemicalSymbols = "X" :: elements.map Prod.fst ∧ elements.map Prod.snd = List.range' 1 118 := by decide +kernel
    cases k with
    | zero =>
      left
      rw [key.1] at hk
      simp at hk
      simp [← hk]
    | succ k =>
      right
      refine ⟨k + 1, ?_, rfl⟩
      rw [key.1, List.getElem?_cons_succ, List.getElem?_map] at hk
      obtain ⟨p, h1, h2⟩ := Option.map_eq_some_iff.mp hk
      have h3 : (elements.map Prod.snd)[k]? = some p.2 := by rw [List.getElem?_map, h1]; rfl
      rw [key.2, List.getElem?_range'] at h3
      · simp at h3
        have : p = (s, k + 1) := Prod.ext h2 (by simp; omega)
        exact this ▸ List.mem_of_getElem? h1
      · have : (elements.map Prod.snd).length = 118 := by rw [key.2]; simp
        have h4 := (List.getElem?_eq_some_iff.mp h1).1
        simpa using this ▸ h4

/-- C99: if the extraction succeeds every entry is an element of the model. -/
theorem C99_rejected {species : List Sp} {f : File} (h : extractFor n der inv (some species) M = some f) :
    ∀ sp ∈ species, ∃ z ∈ M.zs, parse sp = some (z : ℤ) := by
  obtain ⟨zs, h1, h2⟩ := extractFor_some h
  obtain ⟨-, h3, -⟩ := extract_some h2
  intro sp hsp
  have : parse sp ∈ zs.map (fun (z : ℕ) => some (z : ℤ)) := h1 ▸ List.mem_map.mpr ⟨sp, hsp, rfl⟩
  obtain ⟨z, hz, e⟩ := List.mem_map.mp this
  refine ⟨z, h3 z (mem_elems.mpr ?_), e.symm⟩
  rw [if_neg (List.ne_nil_of_mem hz)]
  exact hz

/-- C99: the command writes the file for the elements given by either option, all elements of the model without them, and refuses both
options together. -/
theorem C99_command {model : List Char} {texts : List String} {zs : List ℕ} (h : List.Forall₂ Names (texts.map Sp.text) zs) :
    (cli n der inv model M texts []).map Prod.snd = extract n der inv zs M ∧
    (cli n der inv model M [] texts).map Prod.snd = extract n der inv zs M ∧
    ∀ texts', texts ≠ [] → texts' ≠ [] → cli n der inv model M texts texts' = none := by
  have he := (C99_spellings (n := n) (der := der) (inv := inv) (M := M)).1 h (List.Perm.refl _)
  have key : ∀ l l', ¬ (l ≠ [] ∧ l' ≠ []) → cliSpecies l l' = texts → (cli n der inv model M l l').map Prod.snd = extract n der inv zs M := by
    intro l l' hl e
    unfold cli
    rw [if_neg hl, e, he]
    cases extract n der inv zs M <;> rfl
  refine ⟨key _ _ (by simp) (by simp [cliSpecies]), key _ _ (by simp) ?_, fun texts' h1 h2 => ?_⟩
  · by_cases ht : texts = [] <;> simp [cliSpecies, ht]
  · unfold cli
    rw [if_pos ⟨h1, h2⟩]
    rfl

/-- C99: two runs of the command on one model that choose the same default name for their output write the same data: no file with other
elements is overwritten. -/
theorem C99_names (hM : ∀ z ∈ M.zs, 0 < z) {model name : List Char} {numbers symbols numbers' symbols' : List String} {f f' : File}
    (h : cli n der inv model M numbers symbols = some (name, f)) (h' : cli n der inv model M numbers' symbols' = some (name, f')) :
    f = f' := by
  have key : ∀ {numbers symbols : List String} {f : File}, cli n der inv model M numbers symbols = some (name, f) →
      extractFor n der inv (some ((cliSpecies numbers symbols).map Sp.text)) M = some f ∧
      cliName model (cliSpecies numbers symbols) = name ∧ ∀ s ∈ cliSpecies numbers symbols, '-' ∉ s.toList ∧ s ≠ "" := by
    intro numbers symbols f h
    unfold cli at h
    split_ifs at h with hh
    · cases h
    · cases he : extractFor n der inv (some ((cliSpecies numbers symbols).map Sp.text)) M with
      | none => rw [he] at h; cases h
      | some g =>
        rw [he] at h
        cases h
        refine ⟨rfl, rfl, fun s hs => ?_⟩
        obtain ⟨z, hz, hp⟩ := C99_rejected he (.text s) (List.mem_map.mpr ⟨s, hs, rfl⟩)
        refine ⟨no_dash hp (by exact_mod_cast hM z hz), fun e => ?_⟩
        subst e
        exact parse_ne_empty hp
  obtain ⟨a1, a2, a3⟩ := key h
  obtain ⟨b1, b2, b3⟩ := key h'
  have hp := name_perm (a2.trans b2.symm) a3 b3
  have := extractFor_perm (n := n) (der := der) (inv := inv) (M := M) ((hp.map Sp.text).map parse)
  rw [a1, b1] at this
  exact Option.some.inj this

end

example : parse (.text " 1_0 ") = some 10 ∧ parse (.text "Og") = some 118 ∧ parse (.text "h") = none ∧ parse (.text "1.0") = none ∧
    parse (.text "1__0") = none ∧ parse (.text "-8") = some (-8) ∧ parse (.text "X") = some 0 := by decide +kernel

example : cliName ['m'] ["8", "14", "1"] = "m-1-14-8.json".toList := by decide +kernel

/-! ## The calculator -/

/-- C100: the evaluator is `MACE` in double precision, or a Kokkos evaluator of the requested precision if the library has one; any other
request is rejected, whatever the file. -/
theorem C100_class (W : World) (hasKokkos useKokkos : Bool) (dtype : String) (content : List Char) (kw : Kwargs) :
    (∀ c f, init W hasKokkos useKokkos dtype content kw = .ok (c, f) →
      (c = .mace ∧ useKokkos = false ∧ dtype = "float64") ∨ (c = .maceKokkos ∧ useKokkos = true ∧ hasKokkos = true ∧ dtype = "float64") ∨
      (c = .maceKokkosFloat ∧ useKokkos = true ∧ hasKokkos = true ∧ dtype = "float32")) ∧
    (∀ f, W.evaluator content = some f → (useKokkos = true → hasKokkos = true) → (dtype = "float64" ∨ dtype = "float32" ∧ useKokkos = true) →
      ∃ c, init W hasKokkos useKokkos dtype content kw = .ok (c, f)) := by
  constructor
  · intro c f h
    unfold init at h
    cases hc : classOf hasKokkos useKokkos dtype with
    | error e => rw [hc] at h; cases h
    | ok c' =>
      rw [hc] at h
      have e : c' = c := by
        simp only at h
        split at h
        · cases h; rfl
        · split at h
          · cases h
          · split at h
            · cases h; rfl
            · cases h
      subst e
      unfold classOf at hc
      split_ifs at hc with h1 h2 h3 h4
      · cases hc
        exact Or.inr (Or.inl ⟨rfl, h3, by simp_all, h4⟩)
      · cases hc
        exact Or.inr (Or.inr ⟨rfl, h3, by simp_all, by tauto⟩)
      · cases hc
        refine Or.inl ⟨rfl, by simpa using h3, by tauto⟩
  · intro f hf hk hd
    have : ∃ c, classOf hasKokkos useKokkos dtype = .ok c := by
      unfold classOf
      rcases hd with rfl | ⟨rfl, rfl⟩
      · cases useKokkos <;> simp_all
      · simp_all
    obtain ⟨c, hc⟩ := this
    refine ⟨c, ?_⟩
    unfold init
    rw [hc, hf]

/-- C100, what holds: given a PyTorch model and `species`, the evaluator has the data which the script extracts, if an evaluator reads
what `json.dumps` writes and the text is longer than the buffer of the temporary file.  Missing: `species` left out, short texts, see
`C100_violated`. -/
theorem C100_conversion_partial (W : World) {hasKokkos useKokkos : Bool} {dtype : String} {c : Class}
    (hc : classOf hasKokkos useKokkos dtype = .ok c) {content : List Char} (hj : W.evaluator content = none) {M : Torch}
    (hM : W.torchLoad content = some M) (sp : Option (List Sp)) (points : Option ℕ) {f : File}
    (hf : extractFor (points.getD 256) W.der W.inv sp M = some f) (hd : W.evaluator (W.dumps f) = some f)
    (hl : W.buf < (W.dumps f).length) :
    init W hasKokkos useKokkos dtype content ⟨some sp, points⟩ = .ok (c, f) := by
  have hv : visible W.buf (W.dumps f) = W.dumps f := if_neg (by omega)
  unfold init convert
  simp only [hc, hj, hM, hf, hv, hd]

/-- C100 fails: without `species` no PyTorch model is converted, although the script and the command then take all elements of the model;
and a text that fits into the buffer of the temporary file has not reached the file when the evaluator reads it. -/
theorem C100_violated (W : World) {hasKokkos useKokkos : Bool} {dtype : String} {c : Class}
    (hc : classOf hasKokkos useKokkos dtype = .ok c) {content : List Char} (hj : W.evaluator content = none) (points : Option ℕ) :
    init W hasKokkos useKokkos dtype content ⟨none, points⟩ = .error .type ∧
    ∀ M, W.torchLoad content = some M → ∀ sp f, extractFor (points.getD 256) W.der W.inv sp M = some f →
      (W.dumps f).length ≤ W.buf → W.evaluator [] = none →
      init W hasKokkos useKokkos dtype content ⟨some sp, points⟩ = .error .runtime := by
  refine ⟨?_, fun M hM sp f hf hl he => ?_⟩
  · unfold init convert
    simp only [hc, hj]
  · have hv : visible W.buf (W.dumps f) = [] := if_pos hl
    unfold init convert
    simp only [hc, hj, hM, hf, hv, he]

/-- Both cases occur: a conversion that works, and the same text with a larger buffer. -/
example : ∃ (W W' : World) (content : List Char) (f : File), W'.buf = 10 ∧ W.buf = 3 ∧
    init W false false "float64" content ⟨some (some [.text "H", .text "C"]), some 200⟩ = .ok (.mace, f) ∧
    init W' false false "float64" content ⟨some (some [.text "H", .text "C"]), some 200⟩ = .error .runtime := by
  obtain ⟨f, hf⟩ := torchEx_runs [1, 6] (by simp) 200 id
  have he : extractFor 200 id invEx (some [.text "H", .text "C"]) torchEx = some f := by
    rw [C99_spellings.1 (zs := [1, 6]) (.cons (Or.inr (Or.inr ⟨"H", by decide +kernel, rfl⟩)) (.cons (Or.inr (Or.inr ⟨"C", by decide +kernel, rfl⟩)) .nil))
      (List.Perm.refl _)]
    exact hf
  have hn : ([] : List Char) ≠ ['t', 'e', 'x', 't'] := fun e => by simpa using congrArg List.length e
  let W : World := ⟨fun l => if l = ['t', 'e', 'x', 't'] then some f else none, fun _ => some torchEx, fun _ => ['t', 'e', 'x', 't'], 3, id, invEx⟩
  let W' : World := { W with buf := 10 }
  refine ⟨W, W', [], f, rfl, rfl, ?_, ?_⟩
  · exact C100_conversion_partial W (c := .mace) rfl (if_neg hn) (M := torchEx) rfl _ (some 200) he (by show (if ['t', 'e', 'x', 't'] = ['t', 'e', 'x', 't'] then some f else none) = some f; simp)
      (by show 3 < (['t', 'e', 'x', 't']).length; simp)
  · exact (C100_violated W' (c := .mace) rfl (if_neg hn) (some 200)).2 torchEx rfl _ f he
      (by show (['t', 'e', 'x', 't']).length ≤ 10; simp)
      (by show (if ([] : List Char) = ['t', 'e', 'x', 't'] then some f else none) = none; exact if_neg hn)

end Verif.Props
