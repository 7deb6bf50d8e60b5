import Verif.Lemmas.Lammps.Build
import Verif.Spec.Elements

/-! # `pair_coeff` -/

namespace Verif.Lammps
open Verif.Spec

theorem findIdx?_some {α : Type} [DecidableEq α] {a : α} {l : List α} {i : ℕ} :
    findIdx? a l = some i ↔ l[i]? = some a ∧ ∀ j < i, l[j]? ≠ some a := by
  induction l generalizing i with
  | nil => simp [findIdx?]
  | cons b l ih =>
    unfold findIdx?
    by_cases h : b = a
    · subst h
      rw [if_pos rfl]
      constructor
      · intro e; cases e; exact ⟨rfl, by omega⟩
      · rintro ⟨h1, h2⟩
        rcases Nat.eq_zero_or_pos i with rfl | hp
        · rfl
        · exact absurd rfl (h2 0 hp)
    · rw [if_neg h, Option.map_eq_some_iff]
      constructor
      · rintro ⟨k, hk, rfl⟩
        obtain ⟨h1, h2⟩ := ih.mp hk
        refine ⟨h1, fun j hj => ?_⟩
        cases j with
        | zero => intro e; exact h (Option.some.inj e)
        | succ j => exact h2 j (by omega)
      · rintro ⟨h1, h2⟩
        cases i with
        | zero => exact absurd (Option.some.inj h1) h
        | succ i => exact ⟨i, ih.mpr ⟨h1, fun j hj => h2 (j + 1) (by omega)⟩, rfl⟩

theorem findIdx?_none {α : Type} [DecidableEq α] {a : α} {l : List α} : findIdx? a l = none ↔ a ∉ l := by
  induction l with
  | nil => simp [findIdx?]
  | cons b l ih =>
    unfold findIdx?
    by_cases h : b = a
    · simp [h]
    · rw [if_neg h, Option.map_eq_none_iff, ih, List.mem_cons]
      constructor
      · rintro h1 (h2 | h2)
        · exact h h2.symm
        · exact h1 h2
      · exact fun h1 h2 => h1 (Or.inr h2)

theorem table_eq : periodicTable = elements.map Prod.fst := rfl
theorem numbers_eq : elements.map Prod.snd = List.range' 1 118 := rfl
theorem symbols_nodup : periodicTable.Nodup := by decide +kernel

/-- Position in the table and atomic number. -/
theorem table_number {sym : String} {p : ℕ} : findIdx? sym periodicTable = some p ↔ (sym, p + 1) ∈ elements := by
  have hnum : ∀ i q, elements[i]? = some q → q.2 = i + 1 := by
    intro i q h
    have h1 : (elements.map Prod.snd)[i]? = some q.2 := by rw [List.getElem?_map, h]; rfl
    rw [numbers_eq, List.getElem?_eq_some_iff] at h1
    obtain ⟨h2, h3⟩ := h1
    rw [List.getElem_range'] at h3
    omega
  constructor
  · intro h
    have h1 := (findIdx?_some.mp h).1
    rw [table_eq, List.getElem?_map, Option.map_eq_some_iff] at h1
    obtain ⟨q, h2, h3⟩ := h1
    have h4 := hnum _ _ h2
    have : q = (sym, p + 1) := by rw [← h3, ← h4]
    rw [← this]
    exact List.mem_of_getElem? h2
  · intro h
    obtain ⟨i, hi⟩ := List.mem_iff_getElem?.mp h
    have := hnum _ _ hi
    have hp : i = p := by simpa using this.symm
    subst hp
    have h1 : periodicTable[i]? = some sym := by rw [table_eq, List.getElem?_map, hi]; rfl
    refine findIdx?_some.mpr ⟨h1, fun j hj hj' => ?_⟩
    have hlt := (List.getElem?_eq_some_iff.mp h1).1
    have := (List.nodup_iff_getElem?_ne_getElem?.mp symbols_nodup) j i hj hlt
    exact this (hj'.trans h1.symm)

theorem coeffOne_some {Zs : List ℕ} {sym : String} {i : ℕ} : coeffOne Zs sym = some i ↔
    ∃ Z, (sym, Z) ∈ elements ∧ Zs[i]? = some Z ∧ ∀ j < i, Zs[j]? ≠ some Z := by
  unfold coeffOne
  cases h : findIdx? sym periodicTable with
  | none =>
    constructor
    · intro e; cases e
    · rintro ⟨Z, hZ, _⟩
      rw [findIdx?_none, table_eq] at h
      exact absurd (List.mem_map.mpr ⟨_, hZ, rfl⟩) h
  | some p =>
    simp only [Option.bind_eq_bind, Option.bind_some]
    rw [findIdx?_some]
    constructor
    · intro h1; exact ⟨p + 1, table_number.mp h, h1⟩
    · rintro ⟨Z, hZ, h1⟩
      have : ∃ p', Z = p' + 1 := by
        have : Z ∈ elements.map Prod.snd := List.mem_map.mpr ⟨_, hZ, rfl⟩
        rw [numbers_eq, List.mem_range'_1] at this
        exact ⟨Z - 1, by omega⟩
      obtain ⟨p', rfl⟩ := this
      have h2 := table_number.mpr hZ
      rw [h] at h2
      cases h2
      exact h1

theorem foldO_collect {α β : Type} {g : α → Option β} {l : List α} {acc r : List β} :
    foldO (fun a acc => (g a).bind (fun b => some (acc ++ [b]))) l acc = some r ↔
      ∃ bs, List.Forall₂ (fun a b => g a = some b) l bs ∧ r = acc ++ bs := by
  induction l generalizing acc with
  | nil => simp [eq_comm]
  | cons a l ih =>
    rw [foldO_cons]
    cases h : g a with
    | none =>
      simp only [Option.bind_none]
      constructor
      · intro e; cases e
      · rintro ⟨bs, h1, _⟩
        cases h1 with
        | cons h2 _ => rw [h] at h2; cases h2
    | some b =>
      simp only [Option.bind_some]
      rw [ih]
      constructor
      · rintro ⟨bs, h1, rfl⟩
        exact ⟨b :: bs, List.Forall₂.cons h h1, by simp⟩
      · rintro ⟨bs, h1, rfl⟩
        cases h1 with
        | cons h2 h3 =>
          rw [h] at h2
          cases h2
          exact ⟨_, h3, by simp⟩

theorem coeff_some {Zs : List ℕ} {syms : List String} {mt : List ℕ} :
    coeff Zs syms = some mt ↔ List.Forall₂ (fun a b => coeffOne Zs a = some b) syms mt := by
  unfold coeff
  have := loop_list (l := syms) (n := syms.length) le_rfl
    (fun a (acc : List ℕ) => (coeffOne Zs a).bind (fun b => some (acc ++ [b]))) []
  rw [List.take_length] at this
  refine (Eq.congr this rfl).trans (foldO_collect.trans ?_)
  simp

/-- With every element listed once, the last match is the first match. -/
theorem lastMatch_eq {Zs : List ℕ} (hd : Zs.Nodup) {Z i : ℕ} (h : Zs[i]? = some Z) :
    loop Zs.length (fun j (m : ℤ) => do
      let Zj ← Zs[j]?
      pure (if Z = Zj then (j : ℤ) else m)) (-1) = some (i : ℤ) := by
  have hi := (List.getElem?_eq_some_iff.mp h).1
  have key := loop_eq (n := Zs.length) (fun k => if i < k then (i : ℤ) else -1) (body := fun j (m : ℤ) => do
      let Zj ← Zs[j]?
      pure (if Z = Zj then (j : ℤ) else m)) (fun j hj => by
        rw [List.getElem?_eq_getElem hj]
        simp only [Option.bind_eq_bind, Option.bind_some, Option.pure_def]
        congr 1
        by_cases e : j = i
        · subst e
          rw [List.getElem?_eq_getElem hi] at h
          rw [if_pos (Option.some.inj h).symm, if_pos (by omega)]
        · have hne : Z ≠ Zs[j] := by
            intro hz
            rw [hz, List.getElem?_eq_getElem hi, Option.some.injEq] at h
            exact e ((List.Nodup.getElem_inj_iff hd).mp h).symm
          rw [if_neg hne]
          by_cases hlt : i < j
          · rw [if_pos hlt, if_pos (by omega)]
          · rw [if_neg hlt, if_neg (by omega)])
  rw [if_neg (by omega), if_pos hi] at key
  exact key

theorem coeffKokkos_eq {Zs : List ℕ} (hd : Zs.Nodup) {syms : List String} {mt : List ℕ} (h : coeff Zs syms = some mt)
    (hn : syms.length ≤ Zs.length) :
    coeffKokkos Zs syms = some (List.map (fun m : ℕ => (m : ℤ)) mt ++ List.replicate (Zs.length - syms.length) 0) := by
  have hF := coeff_some.mp h
  have hl : syms.length = mt.length := hF.length_eq
  unfold coeffKokkos
  have key := loop_eq (n := syms.length) (fun k => tab Zs.length (fun t => if t < k then (nthN mt t : ℤ) else 0))
    (body := fun i l => do
      let sym ← syms[i]?
      let p ← findIdx? sym periodicTable
      let Z := p + 1
      let m ← loop Zs.length (fun j (m : ℤ) => do
        let Zj ← Zs[j]?
        pure (if Z = Zj then (j : ℤ) else m)) (-1)
      wr l i m) (fun t ht => by
        have h1 : coeffOne Zs syms[t] = some mt[t] := (List.forall₂_iff_get.mp hF).2 t ht (by omega)
        obtain ⟨Z, hZ, h2, _⟩ := coeffOne_some.mp h1
        have : ∃ p', Z = p' + 1 := by
          have : Z ∈ elements.map Prod.snd := List.mem_map.mpr ⟨_, hZ, rfl⟩
          rw [numbers_eq, List.mem_range'_1] at this
          exact ⟨Z - 1, by omega⟩
        obtain ⟨p', rfl⟩ := this
        rw [List.getElem?_eq_getElem ht]
        simp only [Option.bind_eq_bind, Option.bind_some]
        rw [table_number.mpr hZ, Option.bind_some]
        have := lastMatch_eq hd h2
        simp only [Option.bind_eq_bind] at this
        rw [this, Option.bind_some, wr_tab _ (by omega)]
        congr 1
        apply tab_congr
        intro t' _
        by_cases e : t' = t
        · subst e
          have : nthN mt t' = mt[t'] := by simp [nthN, show t' < mt.length by omega]
          rw [Function.update_self, if_pos (by omega), this]
        · rw [Function.update_of_ne e]
          have : t' < t + 1 ↔ t' < t := by omega
          simp only [this])
  have h0 : tab Zs.length (fun t => if t < 0 then (nthN mt t : ℤ) else 0) = List.replicate Zs.length 0 := by
    simp [tab]
  rw [h0] at key
  rw [key]
  congr 1
  symm
  rw [eq_tab_iff]
  refine ⟨by simp; omega, fun t ht => ?_⟩
  by_cases h1 : t < syms.length
  · rw [List.getElem?_append_left (by simp; omega), if_pos h1]
    simp [nthN, show t < mt.length by omega]
  · rw [List.getElem?_append_right (by simp; omega), if_neg h1]
    simp only [List.length_map]
    rw [List.getElem?_replicate, if_pos (by omega)]

end Verif.Lammps
