import Verif.Lemmas.ASE.Crystal
import Verif.Props.ASE

/-! # Property theorems: results belong to the structure, not to the cell that describes it (C106) -/

namespace Verif.Props
open Verif.ASE Verif.MACE Verif.Spec

section
variable (f : File) (sph : ℝ → ℝ → ℝ → ℕ → ℝ) (dsph : ℝ → ℝ → ℝ → ℕ → ℕ → ℝ) {srt : List (List (List ℕ)) → List (List (List ℕ))}

/-- C106, evaluator: if the graph `T'` covers `T` (each node has the edges of its image, outgoing and incoming), the node energies and the
edge forces of `T'` are those of the images in `T`. -/
theorem C106_covering (hf : FileOk f) (hsrt : Poly.SortFn srt) :
    ∃ P s0, load srt sph dsph f = some (P, s0) ∧ ∀ T X T' X' φ ψ, SysOk f T → SysOk f T' → Inside f T X → Inside f T' X' →
      Covers T' X' T X φ ψ → ∀ s s', Hist f P s0 s → Hist f P s0 s' →
      ∃ r r', computeNodeEnergiesForces f.zbl P (T.graph X) s = some r ∧ computeNodeEnergiesForces f.zbl P (T'.graph X') s' = some r' ∧
        (∀ v < T'.N, ∃ E, r'.nodeEnergies[v]? = some E ∧ r.nodeEnergies[φ v]? = some E) ∧
        ∀ e < T'.E, ∀ a < 3, ∃ F, r'.nodeForces[3 * e + a]? = some F ∧ r.nodeForces[3 * ψ e + a]? = some F := by
  obtain ⟨P, s0, h1, h2, h3⟩ := load_spec hf hsrt sph dsph
  refine ⟨P, s0, h1, fun T X T' X' φ ψ hT hT' hX hX' hc s s' hs hs' => ?_⟩
  obtain ⟨r, e1, e2, e3, -⟩ := compute_spec hf hT h2 hX (hs.ok hf h2 h3)
  obtain ⟨r', g1, g2, g3, -⟩ := compute_spec hf hT' h2 hX' (hs'.ok hf h2 h3)
  have hn : ∀ e < T'.E, nthN T'.idx e < T'.N := hT'.nbr
  refine ⟨r, r', e1, g1, fun v hv => ⟨_, by rw [g2, getElem?_tab_lt hv], ?_⟩, fun e he a ha =>
    ⟨forceOf f sph dsph T' X' e a, ?_, ?_⟩⟩
  · rw [e2, getElem?_tab_lt (hc.node v hv), hc.energy hn hv]
  · rw [g3, mul_comm 3, getElem?_tab2 he ha]
  · rw [e3, mul_comm 3, getElem?_tab2 (hc.lt he) ha, hc.force hn he ha]

/-- C106, calculator: `c` and `c'` describe the same structure (atoms moved by lattice vectors, other cell vectors, supercells). Given lists of
all pairs within a cutoff, the calculator gives every atom of `c'` the energy and the force of the atom of `c` that it is an image of; if
every atom of `c` has `n` images in `c'`, the total energy is `n` times that of `c`, and the stress is the same.
(The last atoms must have neighbours, see C46.) -/
theorem C106_crystal (hf : FileOk f) (hsrt : Poly.SortFn srt) :
    ∃ P s0, load srt sph dsph f = some (P, s0) ∧ ∀ c c' φ τ B rc i j S i' j' S', SameCrystal c c' φ τ B →
      c.Neighbours rc i j S → c'.Neighbours rc i' j' S' → i.Pairwise (· ≤ ·) → i'.Pairwise (· ≤ ·) →
      Known f.atomicNumbers c.Z → (∀ e < i.length, InTable f (len (bonds c i j S e))) → c.Z.length - 1 ∈ i → c'.Z.length - 1 ∈ i' →
      ∀ V V' s s', Hist f P s0 s → Hist f P s0 s' →
      ∃ r r', calculate f.zbl P c.Z V (pairsOf i j (bonds c i j S)) s = some r ∧
        calculate f.zbl P c'.Z V' (pairsOf i' j' (bonds c' i' j' S')) s' = some r' ∧
        (∀ a < c'.Z.length, (∃ E, r'.2.energies[a]? = some E ∧ r.2.energies[φ a]? = some E) ∧
          ∀ d < 3, ∃ l l' F, r.2.forces[d]? = some l ∧ r'.2.forces[d]? = some l' ∧ l'[a]? = some F ∧ l[φ a]? = some F) ∧
        ∀ n, (∀ b < c.Z.length, ((Finset.range c'.Z.length).filter (fun a => φ a = b)).card = n) →
          r'.2.energy = n * r.2.energy ∧ (n ≠ 0 → V' = n * V → r'.2.stress = r.2.stress) := by
  obtain ⟨P, s0, h1, h2, h3⟩ := load_spec hf hsrt sph dsph
  refine ⟨P, s0, h1, fun c c' φ τ B rc i j S i' j' S' h hn hn' hso hso' hk hin hl hl' V V' s s' hs hs' => ?_⟩
  have hp := neighbours_pairs hn hso
  have hp' := neighbours_pairs hn' hso'
  obtain ⟨ψ, hψ, hcov⟩ := crystal_covers h hn hn' (mace := f.atomicNumbers) hso hso'
  have hbond : ∀ e < i'.length, bonds c i j S (ψ e) = bonds c' i' j' S' e := fun e he => image_bond h hn hn' he (hψ e he)
  have hk' : Known f.atomicNumbers c'.Z := by
    intro z hz
    obtain ⟨a, ha, rfl⟩ := List.getElem_of_mem hz
    rw [← nthN_eq ha, h.elem a ha]
    exact hk.nth (h.atom a ha)
  have hin' : ∀ e < i'.length, InTable f (len (bonds c' i' j' S' e)) := fun e he => by
    rw [← hbond e he]
    exact hin _ (hψ e he).1
  have last : ∀ {Z i j : List ℕ}, PairsOk Z.length i j → Z.length - 1 ∈ i → ∃ m, i.max? = some m ∧ m + 1 = Z.length := by
    intro Z i j hp hl
    obtain ⟨m, hm, -⟩ := covered_eq (i := i) (by rintro rfl; cases hl)
    have hi := max?_le hm
    have h4 := hp.lt m hi.1
    have h5 := hi.2 _ hl
    exact ⟨m, hm, by omega⟩
  obtain ⟨m, hm, hN⟩ := last hp hl
  obtain ⟨m', hm', hN'⟩ := last hp' hl'
  have hc : CalcOk f c.Z i j (bonds c i j S) := ⟨hp, hk, hin⟩
  have hc' : CalcOk f c'.Z i' j' (bonds c' i' j' S') := ⟨hp', hk', hin'⟩
  obtain ⟨t, e1, -⟩ := calculate_spec hf h2 hp hk hm (inside_calc hc (by rw [hN]; exact hp.lt)) (hs.ok hf h2 h3) V
  obtain ⟨t', g1, -⟩ := calculate_spec hf h2 hp' hk' hm' (inside_calc hc' (by rw [hN']; exact hp'.lt)) (hs'.ok hf h2 h3) V'
  rw [hN] at e1
  rw [hN'] at g1
  have hE' : (sysOf f.atomicNumbers c'.Z i' j' c'.Z.length).E = i'.length := sysOf_E hp'.lt
  have hnb : ∀ e < (sysOf f.atomicNumbers c'.Z i' j' c'.Z.length).E, nthN (sysOf f.atomicNumbers c'.Z i' j' c'.Z.length).idx e
      < (sysOf f.atomicNumbers c'.Z i' j' c'.Z.length).N := fun e he => (hn'.atom e (hE' ▸ he)).2.1
  have hen : ∀ a < c'.Z.length, energy (netOf f) (confOf f sph (sysOf f.atomicNumbers c.Z i j c.Z.length) (bonds c i j S)) (φ a)
      = energy (netOf f) (confOf f sph (sysOf f.atomicNumbers c'.Z i' j' c'.Z.length) (bonds c' i' j' S')) a :=
    fun a ha => hcov.energy hnb ha
  have hfo : ∀ e < i'.length, ∀ d < 3, forceOf f sph dsph (sysOf f.atomicNumbers c.Z i j c.Z.length) (bonds c i j S) (ψ e) d
      = forceOf f sph dsph (sysOf f.atomicNumbers c'.Z i' j' c'.Z.length) (bonds c' i' j' S') e d :=
    fun e he d hd => hcov.force hnb (by rw [hE']; exact he) hd
  refine ⟨_, _, e1, g1, fun a ha => ⟨⟨_, getElem?_tab_lt ha, ?_⟩, fun d hd => ?_⟩, fun n hcard => ⟨?_, fun hn0 hV => ?_⟩⟩
  · rw [getElem?_tab_lt (h.atom a ha), hen a ha]
  · have key := image_atomForce h hn hn' hψ (fun e he => hfo e he d hd) ha
    interval_cases d
    all_goals exact ⟨_, _, _, rfl, rfl, getElem?_tab_lt ha, by rw [getElem?_tab_lt (h.atom a ha), key]⟩
  · rw [← image_atoms h hcard]
    exact Finset.sum_congr rfl (fun a ha => (hen a (Finset.mem_range.mp ha)).symm)
  · have key : ∀ a < 3, ∀ b, ∑ e ∈ Finset.range i'.length,
        forceOf f sph dsph (sysOf f.atomicNumbers c'.Z i' j' c'.Z.length) (bonds c' i' j' S') e a * bonds c' i' j' S' e b
        = n * ∑ e ∈ Finset.range i.length,
          forceOf f sph dsph (sysOf f.atomicNumbers c.Z i j c.Z.length) (bonds c i j S) e a * bonds c i j S e b := by
      intro a ha b
      rw [← image_pairs h hn hn' hψ hcard]
      refine Finset.sum_congr rfl (fun e he => ?_)
      rw [hfo e (Finset.mem_range.mp he) a ha, hbond e (Finset.mem_range.mp he)]
    dsimp only
    congr 1
    funext a b
    by_cases hab : a < 3 ∧ b < 3
    · rw [if_pos hab, if_pos hab, key a hab.1 b, hV, ← mul_neg, mul_div_mul_left _ _ (Nat.cast_ne_zero.mpr hn0)]
    · rw [if_neg hab, if_neg hab]

end

/-! ## Examples -/

/-- A chain of H atoms at distance 1: one atom per cell. -/
noncomputable def exChain : Cell := ⟨[1], fun _ _ => 0, fun k d => if k = 0 ∧ d = 0 then 1 else 0, fun k => k = 0⟩

/-- The same chain with two atoms per cell. -/
noncomputable def exChain2 : Cell :=
  ⟨[1, 1], fun a d => if a = 1 ∧ d = 0 then 1 else 0, fun k d => if k = 0 ∧ d = 0 then 2 else 0, fun k => k = 0⟩

/-- Cell numbers of the pairs in the two descriptions. -/
def exChainS (e : ℕ) : Fin 3 → ℤ := fun k => if k = 0 then (if e = 0 then 1 else -1) else 0
def exChain2S (e : ℕ) : Fin 3 → ℤ := fun k => if k = 0 then (if e = 1 then -1 else if e = 3 then 1 else 0) else 0

theorem exChain_same : SameCrystal exChain exChain2 (fun _ => 0) (fun a k => if k = 0 then a else 0)
    (fun k l => if k = l then (if k = 0 then 2 else 1) else 0) where
  vec := by
    intro k d
    fin_cases k <;> by_cases hd : d = 0 <;> simp [exChain, exChain2, Fin.sum_univ_three, hd]
  atom := fun a _ => by simp [exChain]
  elem := by
    intro a ha
    have : a < 2 := ha
    interval_cases a <;> rfl
  pos := by
    intro a ha d
    have : a < 2 := ha
    interval_cases a <;> by_cases hd : d = 0 <;> simp [exChain, exChain2, Fin.sum_univ_three, hd]
  shift := by
    intro a ha s hs k hk
    have := hs k hk
    fin_cases k <;> simp_all [exChain, exChain2, Fin.sum_univ_three]
  all := by
    intro b hb t ht
    have hb' : b < 1 := hb
    have h1 := ht 1 rfl
    have h2 := ht 2 rfl
    have h3 : 0 ≤ t 0 % 2 ∧ t 0 % 2 < 2 := ⟨by omega, by omega⟩
    refine ⟨(t 0 % 2).toNat, fun k => if k = 0 then t 0 / 2 else 0, ?_, ?_, by show 0 = b; omega, ?_⟩
    · show (t 0 % 2).toNat < 2
      omega
    · intro k hk
      fin_cases k <;> simp_all [exChain2]
    · funext l
      fin_cases l
      · simp [Fin.sum_univ_three]
        omega
      · simpa [Fin.sum_univ_three] using h1
      · simpa [Fin.sum_univ_three] using h2
  once := by
    intro a ha a' ha' s s' hs hs' _ hh
    have b1 : a < 2 := ha
    have b2 : a' < 2 := ha'
    have h0 := hh 0
    simp [Fin.sum_univ_three] at h0
    refine ⟨by omega, ?_⟩
    funext k
    fin_cases k
    · show s 0 = s' 0
      omega
    · exact (hs 1 rfl).trans (hs' 1 rfl).symm
    · exact (hs 2 rfl).trans (hs' 2 rfl).symm

theorem exChain_len (s : Fin 3 → ℤ) : len (exChain.bond 0 0 s) = |(s 0 : ℝ)| := by
  rw [← Real.sqrt_sq_eq_abs]
  simp [len, Cell.bond, exChain, Fin.sum_univ_three, Finset.sum_range_succ]

theorem exChain2_len (a b : ℕ) (s : Fin 3 → ℤ) (ha : a < 2) (hb : b < 2) :
    len (exChain2.bond a b s) = |((b + 2 * s 0 - a : ℤ) : ℝ)| := by
  rw [← Real.sqrt_sq_eq_abs]
  interval_cases a <;> interval_cases b <;> simp [len, Cell.bond, exChain2, Fin.sum_univ_three, Finset.sum_range_succ, mul_comm]

theorem exChain_near : exChain.Neighbours 2 [0, 0] [0, 0] exChainS where
  lens := rfl
  atom := by
    intro e he
    have : e < 2 := he
    refine ⟨by interval_cases e <;> decide, by interval_cases e <;> decide, fun k hk => ?_⟩
    fin_cases k <;> simp_all [exChain, exChainS]
  near := by
    intro e he
    have h2 : e < 2 := he
    have hi : nthN [0, 0] e = 0 := by interval_cases e <;> rfl
    rw [hi, exChain_len]
    refine ⟨by interval_cases e <;> simp [exChainS], fun hh => ?_⟩
    have := congrFun hh.2 0
    interval_cases e <;> simp [exChainS] at this
  all := by
    intro a ha b hb s hs hlt hne
    have ha' : a = 0 := by have : a < 1 := ha; omega
    have hb' : b = 0 := by have : b < 1 := hb; omega
    subst ha' hb'
    rw [exChain_len, abs_lt] at hlt
    have l1 : (-2 : ℤ) < s 0 := by exact_mod_cast hlt.1
    have l2 : s 0 < (2 : ℤ) := by exact_mod_cast hlt.2
    have hz : s 0 ≠ 0 := by
      intro h0
      refine hne ⟨rfl, ?_⟩
      funext k
      fin_cases k
      · exact h0
      · exact hs 1 rfl
      · exact hs 2 rfl
    have hS : ∀ e, (if e = 0 then (1 : ℤ) else -1) = s 0 → exChainS e = s := by
      intro e he
      funext k
      fin_cases k
      · exact he
      · exact (hs 1 rfl).symm
      · exact (hs 2 rfl).symm
    by_cases hp : s 0 = 1
    · exact ⟨0, by decide, rfl, rfl, hS 0 (by simp [hp])⟩
    · exact ⟨1, by decide, rfl, rfl, hS 1 (by simp; omega)⟩
  once := by
    intro e he e' he' _ _ hS
    have h1 : e < 2 := he
    have h2 : e' < 2 := he'
    have := congrFun hS 0
    interval_cases e <;> interval_cases e' <;> simp [exChainS] at this ⊢

theorem exChain2_near : exChain2.Neighbours 2 [0, 0, 1, 1] [1, 1, 0, 0] exChain2S where
  lens := rfl
  atom := by
    intro e he
    have : e < 4 := he
    refine ⟨by interval_cases e <;> decide, by interval_cases e <;> decide, fun k hk => ?_⟩
    fin_cases k <;> simp_all [exChain2, exChain2S]
  near := by
    intro e he
    have h2 : e < 4 := he
    rw [exChain2_len _ _ _ (by interval_cases e <;> decide) (by interval_cases e <;> decide)]
    refine ⟨by interval_cases e <;> norm_num [exChain2S, nthN], fun hh => ?_⟩
    interval_cases e <;> simp [nthN] at hh
  all := by
    intro a ha b hb s hs hlt hne
    have ha' : a < 2 := ha
    have hb' : b < 2 := hb
    rw [exChain2_len a b s ha' hb', abs_lt] at hlt
    have l1 : (-2 : ℤ) < b + 2 * s 0 - a := by exact_mod_cast hlt.1
    have l2 : b + 2 * s 0 - a < (2 : ℤ) := by exact_mod_cast hlt.2
    have hz : a = b → s 0 ≠ 0 := by
      intro hab h0
      refine hne ⟨hab, ?_⟩
      funext k
      fin_cases k
      · exact h0
      · exact hs 1 rfl
      · exact hs 2 rfl
    have hS : ∀ e, (if e = 1 then (-1 : ℤ) else if e = 3 then 1 else 0) = s 0 → exChain2S e = s := by
      intro e he
      funext k
      fin_cases k
      · exact he
      · exact (hs 1 rfl).symm
      · exact (hs 2 rfl).symm
    interval_cases a <;> interval_cases b
    · exact absurd (by push_cast at l1 l2; omega) (hz rfl)
    · by_cases h0 : s 0 = 0
      · exact ⟨0, by decide, rfl, rfl, hS 0 (by simp [h0])⟩
      · exact ⟨1, by decide, rfl, rfl, hS 1 (by push_cast at l1 l2; simp; omega)⟩
    · by_cases h0 : s 0 = 0
      · exact ⟨2, by decide, rfl, rfl, hS 2 (by simp [h0])⟩
      · exact ⟨3, by decide, rfl, rfl, hS 3 (by push_cast at l1 l2; simp; omega)⟩
    · exact absurd (by push_cast at l1 l2; omega) (hz rfl)
  once := by
    intro e he e' he' hi _ hS
    have h1 : e < 4 := he
    have h2 : e' < 4 := he'
    have := congrFun hS 0
    interval_cases e <;> interval_cases e' <;> simp [exChain2S, nthN] at this hi ⊢

/-- The hypotheses of C106 are met by a chain described with one and with two atoms per cell; every atom occurs twice. -/
example : FileOk exFile ∧ SameCrystal exChain exChain2 (fun _ => 0) (fun a k => if k = 0 then a else 0)
      (fun k l => if k = l then (if k = 0 then 2 else 1) else 0) ∧
    exChain.Neighbours 2 [0, 0] [0, 0] exChainS ∧ exChain2.Neighbours 2 [0, 0, 1, 1] [1, 1, 0, 0] exChain2S ∧
    Known exFile.atomicNumbers exChain.Z ∧ (∀ e < 2, InTable exFile (len (bonds exChain [0, 0] [0, 0] exChainS e))) ∧
    exChain.Z.length - 1 ∈ [0, 0] ∧ exChain2.Z.length - 1 ∈ [0, 0, 1, 1] ∧
    (∀ b < exChain.Z.length, ((Finset.range exChain2.Z.length).filter (fun _ => 0 = b)).card = 2) ∧ ∃ srt, Poly.SortFn srt := by
  refine ⟨exFile_ok, exChain_same, exChain_near, exChain2_near, ?_, fun e he => ?_, by decide, by decide, fun b hb => ?_, _, exSort⟩
  · intro z hz
    have : exFile.atomicNumbers = [1, 6] := rfl
    rw [this]
    have : exChain.Z = [1] := rfl
    rw [this] at hz
    revert z
    decide
  · have hl : len (bonds exChain [0, 0] [0, 0] exChainS e) = len (exX 0) := by
      rw [exLen (by norm_num)]
      have hi : nthN [0, 0] e = 0 := by interval_cases e <;> rfl
      unfold bonds
      rw [hi, exChain_len]
      interval_cases e <;> simp [exChainS]
    rw [hl]
    exact exInside 0 (by decide)
  · have : b = 0 := by have : b < 1 := hb; omega
    subst this
    rfl

end Verif.Props
