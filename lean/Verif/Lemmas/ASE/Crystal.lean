import Verif.Spec.Crystal
import Verif.Lemmas.ASE.Results
import Verif.Lemmas.MACE.Cover

/-! # Neighbour lists of two descriptions of one crystal -/

namespace Verif.ASE
open Verif.MACE Verif.Spec

variable {c c' : Cell} {φ : ℕ → ℕ} {τ : ℕ → Fin 3 → ℤ} {B : Fin 3 → Fin 3 → ℤ} {rc : ℝ} {i j i' j' : List ℕ}
  {S S' : ℕ → Fin 3 → ℤ}

/-- Pair vectors of a list of neighbours. -/
noncomputable def bonds (c : Cell) (i j : List ℕ) (S : ℕ → Fin 3 → ℤ) (e : ℕ) : ℕ → ℝ := c.bond (nthN i e) (nthN j e) (S e)

theorem nthN_eq {l : List ℕ} {e : ℕ} (he : e < l.length) : nthN l e = l[e] := by
  unfold nthN
  rw [List.getElem?_eq_getElem he]
  rfl

/-! ## Pairs and reversed pairs -/

theorem bond_neg (a b : ℕ) (s : Fin 3 → ℤ) (d : ℕ) : c.bond b a (-s) d = - c.bond a b s d := by
  unfold Cell.bond
  simp only [Pi.neg_apply, Int.cast_neg, neg_mul, Finset.sum_neg_distrib]
  ring

theorem len_neg {x y : ℕ → ℝ} (h : ∀ d, x d = - y d) : len x = len y := by
  unfold len
  simp only [h, neg_sq]

theorem shift_neg {s : Fin 3 → ℤ} (h : c.Shift s) : c.Shift (-s) := fun k hk => by
  rw [Pi.neg_apply, h k hk, neg_zero]

theorem zip_eq {i j : List ℕ} (h : i.length = j.length) : i.zip j = (List.range i.length).map (fun e => (nthN i e, nthN j e)) := by
  refine List.ext_getElem (by simp [h]) (fun e h1 h2 => ?_)
  have he : e < i.length := by simpa using h2
  have he' : e < j.length := h ▸ he
  simp [nthN_eq he, nthN_eq he']

/-- Lists of neighbours contain with each pair the reversed pair. -/
theorem neighbours_pairs (h : c.Neighbours rc i j S) (hs : i.Pairwise (· ≤ ·)) : PairsOk c.Z.length i j := by
  refine ⟨h.lens, hs, ?_, fun a ha => ?_⟩
  · have hex : ∀ e, ∃ e', e < i.length → e' < i.length ∧ nthN i e' = nthN j e ∧ nthN j e' = nthN i e ∧ S e' = - S e := by
      intro e
      by_cases he : e < i.length
      · obtain ⟨a1, a2, a3⟩ := h.atom e he
        obtain ⟨n1, n2⟩ := h.near e he
        obtain ⟨e', k1, k2, k3, k4⟩ := h.all _ a2 _ a1 _ (shift_neg a3)
          (by rw [len_neg (bond_neg (c := c) (nthN i e) (nthN j e) (S e))]; exact n1)
          (fun hh => n2 ⟨hh.1.symm, neg_eq_zero.mp hh.2⟩)
        exact ⟨e', fun _ => ⟨k1, k2, k3, k4⟩⟩
      · exact ⟨0, fun hh => absurd hh he⟩
    choose σ hσ using hex
    have hp : ((List.range i.length).map σ).Perm (List.range i.length) := by
      have hinj : ∀ x ∈ List.range i.length, ∀ y ∈ List.range i.length, σ x = σ y → x = y := by
        intro x hx y hy hxy
        obtain ⟨_, x1, x2, x3⟩ := hσ x (List.mem_range.mp hx)
        obtain ⟨_, y1, y2, y3⟩ := hσ y (List.mem_range.mp hy)
        refine h.once x (List.mem_range.mp hx) y (List.mem_range.mp hy) ?_ ?_ ?_
        · rw [← x2, ← y2, hxy]
        · rw [← x1, ← y1, hxy]
        · rw [← neg_neg (S x), ← x3, ← neg_neg (S y), ← y3, hxy]
      rw [List.perm_ext_iff_of_nodup (List.Nodup.map_on hinj List.nodup_range) List.nodup_range]
      intro x
      rw [List.mem_map]
      constructor
      · rintro ⟨y, hy, rfl⟩
        exact List.mem_range.mpr (hσ y (List.mem_range.mp hy)).1
      · intro hx
        obtain ⟨x0, x1, x2, x3⟩ := hσ x (List.mem_range.mp hx)
        obtain ⟨y0, y1, y2, y3⟩ := hσ (σ x) x0
        refine ⟨σ x, List.mem_range.mpr x0, h.once _ y0 _ (List.mem_range.mp hx) ?_ ?_ ?_⟩
        · rw [y1, x2]
        · rw [y2, x1]
        · rw [y3, x3, neg_neg]
    rw [zip_eq h.lens, zip_eq h.lens.symm, ← h.lens]
    have h2 := hp.map (fun e => (nthN j e, nthN i e))
    rw [List.map_map] at h2
    refine List.Perm.trans (List.Perm.of_eq (List.map_congr_left (fun e he => ?_))) h2
    obtain ⟨x0, x1, x2, x3⟩ := hσ e (List.mem_range.mp he)
    show _ = (nthN j (σ e), nthN i (σ e))
    rw [x1, x2]
  · obtain ⟨e, he, rfl⟩ := List.getElem_of_mem ha
    rw [← nthN_eq he]
    exact (h.atom e he).1

/-! ## The map of edges -/

/-- Cell of the second atom relative to the first, in the cells of `c`. -/
def relShift (τ : ℕ → Fin 3 → ℤ) (B : Fin 3 → Fin 3 → ℤ) (a b : ℕ) (s : Fin 3 → ℤ) (l : Fin 3) : ℤ := τ b l + ∑ k, s k * B k l - τ a l

section same
variable (h : SameCrystal c c' φ τ B)
include h

theorem same_bond {a b : ℕ} (ha : a < c'.Z.length) (hb : b < c'.Z.length) (s : Fin 3 → ℤ) :
    c'.bond a b s = c.bond (φ a) (φ b) (relShift τ B a b s) := by
  funext d
  unfold Cell.bond relShift
  rw [h.pos a ha, h.pos b hb]
  simp only [h.vec, Fin.sum_univ_three]
  push_cast
  ring

theorem shift_tau {a : ℕ} (ha : a < c'.Z.length) : c.Shift (τ a) := by
  have := h.shift a ha 0 (fun _ _ => rfl)
  simpa using this

theorem same_shift {a b : ℕ} (ha : a < c'.Z.length) (hb : b < c'.Z.length) {s : Fin 3 → ℤ} (hs : c'.Shift s) :
    c.Shift (relShift τ B a b s) := by
  intro k hk
  have h1 := h.shift b hb s hs k hk
  have h2 := shift_tau h ha k hk
  unfold relShift
  rw [h2, sub_zero]
  exact h1

theorem same_self {a b : ℕ} (ha : a < c'.Z.length) (hb : b < c'.Z.length) {s : Fin 3 → ℤ} (hs : c'.Shift s)
    (hn : ¬ (a = b ∧ s = 0)) : ¬ (φ a = φ b ∧ relShift τ B a b s = 0) := by
  rintro ⟨h1, h2⟩
  refine hn ?_
  obtain ⟨k1, k2⟩ := h.once a ha b hb 0 s (fun _ _ => rfl) hs h1 (fun l => by
    have := congrFun h2 l
    unfold relShift at this
    simp only [Pi.zero_apply, zero_mul, Finset.sum_const_zero, add_zero] at *
    omega)
  exact ⟨k1, k2.symm⟩

end same

/-- The pair of `c` with which a pair of `c'` corresponds. -/
def Image (φ : ℕ → ℕ) (τ : ℕ → Fin 3 → ℤ) (B : Fin 3 → Fin 3 → ℤ) (i j : List ℕ) (S : ℕ → Fin 3 → ℤ) (i' j' : List ℕ)
    (S' : ℕ → Fin 3 → ℤ) (e' e : ℕ) : Prop :=
  e < i.length ∧ nthN i e = φ (nthN i' e') ∧ nthN j e = φ (nthN j' e') ∧ S e = relShift τ B (nthN i' e') (nthN j' e') (S' e')

section edges
variable (h : SameCrystal c c' φ τ B) (hn : c.Neighbours rc i j S) (hn' : c'.Neighbours rc i' j' S')
include h hn hn'

theorem image_ex {e : ℕ} (he : e < i'.length) : ∃ e0, Image φ τ B i j S i' j' S' e e0 := by
  obtain ⟨a1, a2, a3⟩ := hn'.atom e he
  obtain ⟨n1, n2⟩ := hn'.near e he
  obtain ⟨e0, k1, k2, k3, k4⟩ := hn.all _ (h.atom _ a1) _ (h.atom _ a2) _ (same_shift h a1 a2 a3)
    (by rw [← same_bond h a1 a2]; exact n1) (same_self h a1 a2 a3 n2)
  exact ⟨e0, k1, k2, k3, k4⟩

theorem image_bond {e e0 : ℕ} (he : e < i'.length) (hi : Image φ τ B i j S i' j' S' e e0) : bonds c i j S e0 = bonds c' i' j' S' e := by
  obtain ⟨a1, a2, a3⟩ := hn'.atom e he
  unfold bonds
  rw [hi.2.1, hi.2.2.1, hi.2.2.2, same_bond h a1 a2]

/-- Pairs with the same image and the same first atom are the same. -/
theorem image_out {e1 e2 e0 : ℕ} (h1 : e1 < i'.length) (h2 : e2 < i'.length) (k1 : Image φ τ B i j S i' j' S' e1 e0)
    (k2 : Image φ τ B i j S i' j' S' e2 e0) (ha : nthN i' e1 = nthN i' e2) : e1 = e2 := by
  obtain ⟨a1, a2, a3⟩ := hn'.atom e1 h1
  obtain ⟨b1, b2, b3⟩ := hn'.atom e2 h2
  obtain ⟨q1, q2⟩ := h.once _ a2 _ b2 _ _ a3 b3 (by rw [← k1.2.2.1, k2.2.2.1]) (fun l => by
    have := congrFun (k1.2.2.2.symm.trans k2.2.2.2) l
    unfold relShift at this
    rw [ha] at this
    omega)
  exact hn'.once _ h1 _ h2 ha q1 q2

/-- Pairs with the same image and the same second atom are the same. -/
theorem image_in {e1 e2 e0 : ℕ} (h1 : e1 < i'.length) (h2 : e2 < i'.length) (k1 : Image φ τ B i j S i' j' S' e1 e0)
    (k2 : Image φ τ B i j S i' j' S' e2 e0) (hb : nthN j' e1 = nthN j' e2) : e1 = e2 := by
  obtain ⟨a1, a2, a3⟩ := hn'.atom e1 h1
  obtain ⟨b1, b2, b3⟩ := hn'.atom e2 h2
  obtain ⟨q1, q2⟩ := h.once _ a1 _ b1 _ _ (shift_neg a3) (shift_neg b3) (by rw [← k1.2.1, k2.2.1]) (fun l => by
    have := congrFun (k1.2.2.2.symm.trans k2.2.2.2) l
    unfold relShift at this
    rw [hb] at this
    simp only [Pi.neg_apply, neg_mul, Finset.sum_neg_distrib]
    omega)
  exact hn'.once _ h1 _ h2 q1 hb (neg_injective q2)

/-- Every pair of the image of an atom comes from a pair of the atom. -/
theorem image_out_ex {a e0 : ℕ} (ha : a < c'.Z.length) (he : e0 < i.length) (h0 : nthN i e0 = φ a) :
    ∃ e < i'.length, nthN i' e = a ∧ Image φ τ B i j S i' j' S' e e0 := by
  obtain ⟨a1, a2, a3⟩ := hn.atom e0 he
  obtain ⟨n1, n2⟩ := hn.near e0 he
  obtain ⟨b, s, b1, b2, b3, b4⟩ := h.all _ a2 (fun l => S e0 l + τ a l) (fun k hk => by
    show S e0 k + τ a k = 0
    rw [a3 k hk, shift_tau h ha k hk, add_zero])
  have hS : S e0 = relShift τ B a b s := by
    funext l
    have := congrFun b4 l
    unfold relShift
    omega
  obtain ⟨e, k1, k2, k3, k4⟩ := hn'.all a ha b b1 s b2 (by rw [same_bond h ha b1, ← hS, b3, ← h0]; exact n1) (fun hh => n2 (by
    obtain ⟨q1, q2⟩ := hh
    subst q1 q2
    refine ⟨by rw [h0, ← b3], ?_⟩
    rw [hS]
    funext l
    simp [relShift]))
  exact ⟨e, k1, k2, he, by rw [h0, k2], by rw [← b3, k3], by rw [hS, k2, k3, k4]⟩

/-- The same for second atoms. -/
theorem image_in_ex {b e0 : ℕ} (hb : b < c'.Z.length) (he : e0 < i.length) (h0 : nthN j e0 = φ b) :
    ∃ e < i'.length, nthN j' e = b ∧ Image φ τ B i j S i' j' S' e e0 := by
  obtain ⟨a1, a2, a3⟩ := hn.atom e0 he
  obtain ⟨n1, n2⟩ := hn.near e0 he
  obtain ⟨a, s, b1, b2, b3, b4⟩ := h.all _ a1 (fun l => τ b l - S e0 l) (fun k hk => by
    show τ b k - S e0 k = 0
    rw [a3 k hk, shift_tau h hb k hk, sub_zero])
  have hS : S e0 = relShift τ B a b (-s) := by
    funext l
    have := congrFun b4 l
    unfold relShift
    simp only [Pi.neg_apply, neg_mul, Finset.sum_neg_distrib]
    omega
  obtain ⟨e, k1, k2, k3, k4⟩ := hn'.all a b1 b hb (-s) (shift_neg b2) (by rw [same_bond h b1 hb, ← hS, b3, ← h0]; exact n1)
    (fun hh => n2 (by
      obtain ⟨q1, q2⟩ := hh
      subst q1
      refine ⟨by rw [h0, ← b3], ?_⟩
      rw [hS, q2]
      funext l
      simp [relShift]))
  exact ⟨e, k1, k3, he, by rw [← b3, k2], by rw [h0, k3], by rw [hS, k2, k3, k4]⟩

open Classical in
/-- The neighbour lists of two descriptions of a crystal cover each other. -/
theorem crystal_covers {mace : List ℕ} (hs : i.Pairwise (· ≤ ·)) (hs' : i'.Pairwise (· ≤ ·)) :
    ∃ ψ : ℕ → ℕ, (∀ e < i'.length, Image φ τ B i j S i' j' S' e (ψ e)) ∧
      Covers (sysOf mace c'.Z i' j' c'.Z.length) (bonds c' i' j' S') (sysOf mace c.Z i j c.Z.length) (bonds c i j S) φ ψ := by
  have hp := neighbours_pairs hn hs
  have hp' := neighbours_pairs hn' hs'
  refine ⟨fun e => if he : e < i'.length then (image_ex h hn hn' he).choose else 0, ?_, ?_⟩
  · intro e he
    dsimp only
    rw [dif_pos he]
    exact (image_ex h hn hn' he).choose_spec
  generalize hψ : (fun e => if he : e < i'.length then (image_ex h hn hn' he).choose else 0) = ψ
  have im : ∀ e < i'.length, Image φ τ B i j S i' j' S' e (ψ e) := by
    intro e he
    rw [← hψ]
    dsimp only
    rw [dif_pos he]
    exact (image_ex h hn hn' he).choose_spec
  have hE : (sysOf mace c.Z i j c.Z.length).E = i.length := sysOf_E hp.lt
  have hE' : (sysOf mace c'.Z i' j' c'.Z.length).E = i'.length := sysOf_E hp'.lt
  have hed : ∀ a < c.Z.length, ∀ e, e ∈ (sysOf mace c.Z i j c.Z.length).edg a ↔ e < i.length ∧ nthN i e = a := by
    intro a ha e
    constructor
    · intro he
      have hl : e < i.length := hE ▸ edg_lt (T := sysOf mace c.Z i j c.Z.length) ha he
      exact ⟨hl, by rw [nthN_eq hl]; exact (sysOf_edg hs ha hl).mp he⟩
    · rintro ⟨hl, he⟩
      exact (sysOf_edg hs ha hl).mpr (by rw [← nthN_eq hl]; exact he)
  have hed' : ∀ a < c'.Z.length, ∀ e, e ∈ (sysOf mace c'.Z i' j' c'.Z.length).edg a ↔ e < i'.length ∧ nthN i' e = a := by
    intro a ha e
    constructor
    · intro he
      have hl : e < i'.length := hE' ▸ edg_lt (T := sysOf mace c'.Z i' j' c'.Z.length) ha he
      exact ⟨hl, by rw [nthN_eq hl]; exact (sysOf_edg hs' ha hl).mp he⟩
    · rintro ⟨hl, he⟩
      exact (sysOf_edg hs' ha hl).mpr (by rw [← nthN_eq hl]; exact he)
  have htyp : ∀ (Z : List ℕ) (i j : List ℕ), ∀ a < Z.length, nthN (sysOf mace Z i j Z.length).types a = elem mace Z a := by
    intro Z i j a ha
    simp [nthN, sysOf, ha]
  have hnt : ∀ (Z i j : List ℕ) (e : ℕ), e < j.length → nthN (sysOf mace Z i j Z.length).ntypes e = elem mace Z (nthN j e) := by
    intro Z i j e he
    rw [nthN_eq he]
    simp [nthN, sysOf, he]
  have hel : ∀ a < c'.Z.length, elem mace c.Z (φ a) = elem mace c'.Z a := by
    intro a ha
    unfold elem
    rw [h.elem a ha]
  refine ⟨fun a ha => h.atom a ha, fun a ha => ⟨?_, ⟨?_, ?_, ?_⟩, ?_, ?_⟩, ?_, fun b hb => ⟨?_, ?_, ?_⟩⟩
  · rw [htyp _ _ _ _ (h.atom a ha), htyp _ _ _ _ ha, hel a ha]
  · intro e he
    obtain ⟨h1, h2⟩ := (hed' a ha e).mp he
    exact (hed _ (h.atom a ha) _).mpr ⟨(im e h1).1, by rw [(im e h1).2.1, h2]⟩
  · intro e1 he1 e2 he2 heq
    obtain ⟨h1, h2⟩ := (hed' a ha e1).mp he1
    obtain ⟨h3, h4⟩ := (hed' a ha e2).mp he2
    exact image_out h hn hn' h1 h3 (im e1 h1) (by rw [heq]; exact im e2 h3) (h2.trans h4.symm)
  · intro e0 he0
    obtain ⟨h1, h2⟩ := (hed _ (h.atom a ha) e0).mp he0
    obtain ⟨e, k1, k2, k3⟩ := image_out_ex h hn hn' ha h1 h2
    refine ⟨e, (hed' a ha e).mpr ⟨k1, k2⟩, ?_⟩
    have k4 := im e k1
    exact hn.once _ k4.1 _ k3.1 (by rw [k4.2.1, k3.2.1]) (by rw [k4.2.2.1, k3.2.2.1]) (by rw [k4.2.2.2, k3.2.2.2])
  · intro e he d _
    obtain ⟨h1, -⟩ := (hed' a ha e).mp he
    rw [image_bond h hn hn' h1 (im e h1)]
  · intro e he
    obtain ⟨h1, -⟩ := (hed' a ha e).mp he
    rw [hnt _ _ _ _ (hn.lens ▸ (im e h1).1), hnt _ _ _ _ (hn'.lens ▸ h1), (im e h1).2.2.1, hel _ (hn'.atom e h1).2.1]
  · intro e he
    rw [hE'] at he
    exact (im e he).2.2.1
  · rintro e ⟨h1, h2⟩
    rw [hE'] at h1
    refine ⟨by rw [hE]; exact (im e h1).1, ?_⟩
    show nthN j (ψ e) = φ b
    rw [(im e h1).2.2.1]
    exact congrArg φ h2
  · rintro e1 ⟨h1, h2⟩ e2 ⟨h3, h4⟩ heq
    rw [hE'] at h1 h3
    exact image_in h hn hn' h1 h3 (im e1 h1) (by rw [heq]; exact im e2 h3) (h2.trans h4.symm)
  · rintro e0 ⟨h1, h2⟩
    rw [hE] at h1
    obtain ⟨e, k1, k2, k3⟩ := image_in_ex h hn hn' hb h1 h2
    refine ⟨e, ⟨by rw [hE']; exact k1, k2⟩, ?_⟩
    have k4 := im e k1
    exact hn.once _ k4.1 _ k3.1 (by rw [k4.2.1, k3.2.1]) (by rw [k4.2.2.1, k3.2.2.1]) (by rw [k4.2.2.2, k3.2.2.2])

/-- Sums over the pairs of an atom, by first and by second atom. -/
theorem image_sum {ψ : ℕ → ℕ} (hψ : ∀ e < i'.length, Image φ τ B i j S i' j' S' e (ψ e)) (g : ℕ → ℝ) {a : ℕ} (ha : a < c'.Z.length) :
    ∑ e ∈ (Finset.range i'.length).filter (fun e => nthN i' e = a), g (ψ e)
      = ∑ e ∈ (Finset.range i.length).filter (fun e => nthN i e = φ a), g e ∧
    ∑ e ∈ (Finset.range i'.length).filter (fun e => nthN j' e = a), g (ψ e)
      = ∑ e ∈ (Finset.range i.length).filter (fun e => nthN j e = φ a), g e := by
  constructor
  · refine Finset.sum_nbij ψ (fun e he => ?_) (fun e1 h1 e2 h2 h12 => ?_) (fun e0 he => ?_) (fun e _ => rfl)
    · simp only [Finset.mem_filter, Finset.mem_range] at he ⊢
      exact ⟨(hψ e he.1).1, by rw [(hψ e he.1).2.1, he.2]⟩
    · simp only [Finset.coe_filter, Finset.mem_range, Set.mem_setOf_eq] at h1 h2
      exact image_out h hn hn' h1.1 h2.1 (hψ e1 h1.1) (by rw [h12]; exact hψ e2 h2.1) (h1.2.trans h2.2.symm)
    · simp only [Finset.coe_filter, Finset.mem_range, Set.mem_setOf_eq, Set.mem_image] at he ⊢
      obtain ⟨e, k1, k2, k3⟩ := image_out_ex h hn hn' ha he.1 he.2
      have k4 := hψ e k1
      exact ⟨e, ⟨k1, k2⟩, hn.once _ k4.1 _ k3.1 (by rw [k4.2.1, k3.2.1]) (by rw [k4.2.2.1, k3.2.2.1]) (by rw [k4.2.2.2, k3.2.2.2])⟩
  · refine Finset.sum_nbij ψ (fun e he => ?_) (fun e1 h1 e2 h2 h12 => ?_) (fun e0 he => ?_) (fun e _ => rfl)
    · simp only [Finset.mem_filter, Finset.mem_range] at he ⊢
      exact ⟨(hψ e he.1).1, by rw [(hψ e he.1).2.2.1, he.2]⟩
    · simp only [Finset.coe_filter, Finset.mem_range, Set.mem_setOf_eq] at h1 h2
      exact image_in h hn hn' h1.1 h2.1 (hψ e1 h1.1) (by rw [h12]; exact hψ e2 h2.1) (h1.2.trans h2.2.symm)
    · simp only [Finset.coe_filter, Finset.mem_range, Set.mem_setOf_eq, Set.mem_image] at he ⊢
      obtain ⟨e, k1, k2, k3⟩ := image_in_ex h hn hn' ha he.1 he.2
      have k4 := hψ e k1
      exact ⟨e, ⟨k1, k2⟩, hn.once _ k4.1 _ k3.1 (by rw [k4.2.1, k3.2.1]) (by rw [k4.2.2.1, k3.2.2.1]) (by rw [k4.2.2.2, k3.2.2.2])⟩

/-- Forces on atoms. -/
theorem image_atomForce {ψ : ℕ → ℕ} (hψ : ∀ e < i'.length, Image φ τ B i j S i' j' S' e (ψ e)) {F F' : ℕ → ℕ → ℝ} {d : ℕ}
    (hF : ∀ e < i'.length, F (ψ e) d = F' e d) {a : ℕ} (ha : a < c'.Z.length) :
    atomForce i' j' F' a d = atomForce i j F (φ a) d := by
  have key : ∀ (i j : List ℕ) (F : ℕ → ℕ → ℝ) (a : ℕ), atomForce i j F a d
      = ∑ e ∈ (Finset.range i.length).filter (fun e => nthN j e = a), F e d
        - ∑ e ∈ (Finset.range i.length).filter (fun e => nthN i e = a), F e d := by
    intro i j F a
    unfold atomForce
    simp only [mul_sub, Finset.sum_sub_distrib, mul_ite, mul_one, mul_zero, Finset.sum_filter]
  rw [key, key, ← (image_sum h hn hn' hψ (fun e => F e d) ha).1, ← (image_sum h hn hn' hψ (fun e => F e d) ha).2]
  congr 1
  · exact Finset.sum_congr rfl (fun e he => (hF e (Finset.mem_range.mp (Finset.mem_filter.mp he).1)).symm)
  · exact Finset.sum_congr rfl (fun e he => (hF e (Finset.mem_range.mp (Finset.mem_filter.mp he).1)).symm)

omit hn hn' in
/-- Sums over atoms, if every atom occurs `n` times. -/
theorem image_atoms {n : ℕ} (hc : ∀ b < c.Z.length, ((Finset.range c'.Z.length).filter (fun a => φ a = b)).card = n) (g : ℕ → ℝ) :
    ∑ a ∈ Finset.range c'.Z.length, g (φ a) = n * ∑ b ∈ Finset.range c.Z.length, g b := by
  rw [← Finset.sum_fiberwise_of_maps_to (t := Finset.range c.Z.length) (g := φ)
    (fun a ha => Finset.mem_range.mpr (h.atom a (Finset.mem_range.mp ha))), Finset.mul_sum]
  refine Finset.sum_congr rfl (fun b hb => ?_)
  rw [Finset.sum_congr rfl (g := fun _ => g b) (fun a ha => by rw [(Finset.mem_filter.mp ha).2]), Finset.sum_const,
    hc b (Finset.mem_range.mp hb), nsmul_eq_mul]

/-- Sums over pairs, if every atom occurs `n` times. -/
theorem image_pairs {ψ : ℕ → ℕ} (hψ : ∀ e < i'.length, Image φ τ B i j S i' j' S' e (ψ e)) {n : ℕ}
    (hc : ∀ b < c.Z.length, ((Finset.range c'.Z.length).filter (fun a => φ a = b)).card = n) (g : ℕ → ℝ) :
    ∑ e ∈ Finset.range i'.length, g (ψ e) = n * ∑ e ∈ Finset.range i.length, g e := by
  rw [← Finset.sum_fiberwise_of_maps_to (t := Finset.range c'.Z.length) (g := nthN i')
      (fun e he => Finset.mem_range.mpr (hn'.atom e (Finset.mem_range.mp he)).1),
    ← Finset.sum_fiberwise_of_maps_to (s := Finset.range i.length) (t := Finset.range c.Z.length) (g := nthN i)
      (fun e he => Finset.mem_range.mpr (hn.atom e (Finset.mem_range.mp he)).1),
    ← image_atoms h hc (fun b => ∑ e ∈ (Finset.range i.length).filter (fun e => nthN i e = b), g e)]
  exact Finset.sum_congr rfl (fun a ha => (image_sum h hn hn' hψ g (Finset.mem_range.mp ha)).1)

end edges

end Verif.ASE
