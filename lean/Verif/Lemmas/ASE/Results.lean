import Verif.Lemmas.ASE.Graph

/-! # Atom forces and stress -/

namespace Verif.ASE
open Verif.MACE Verif.Spec

theorem bincountW_eq {l : List ℕ} {g : ℕ → ℝ} {m : ℕ} (h : ∀ a ∈ l, a < m) :
    bincountW l (tab l.length g) m
      = some (tab m (fun k => ∑ e ∈ Finset.range l.length, if nthN l e = k then g e else 0)) := by
  unfold bincountW
  rw [if_pos (by simp), binLength_eq h]
  congr 1
  refine tab_congr (fun k _ => ?_)
  clear h
  have key : ∀ (l : List ℕ) (g : ℕ → ℝ), (((l.zip (tab l.length g)).filter (fun p => p.1 == k)).map Prod.snd).sum
      = ∑ e ∈ Finset.range l.length, if nthN l e = k then g e else 0 := by
    intro l
    induction l with
    | nil => intro g; simp
    | cons a l ih =>
      intro g
      have ht : tab (a :: l).length g = g 0 :: tab l.length (fun e => g (e + 1)) := by
        unfold tab
        rw [List.length_cons, List.range_succ_eq_map, List.map_cons, List.map_map]
        rfl
      rw [ht, List.zip_cons_cons, List.length_cons, Finset.sum_range_succ', add_comm]
      have h0 : nthN (a :: l) 0 = a := rfl
      have h1 : ∀ e, nthN (a :: l) (e + 1) = nthN l e := fun e => rfl
      simp only [h0, h1]
      by_cases hk : a = k
      · rw [List.filter_cons_of_pos (by simpa using hk), List.map_cons, List.sum_cons, ih, if_pos hk]
      · rw [List.filter_cons_of_neg (by simpa using hk), ih, if_neg hk, zero_add]
  exact key l g

theorem column_eq {n c : ℕ} {F : ℕ → ℕ → ℝ} (hc : c < 3) : column (tab2 n 3 F) n c = some (tab n (fun e => F e c)) := by
  unfold column
  rw [length_tab2, if_pos (by omega), Nat.mul_div_cancel _ (by norm_num), Nat.min_self]
  congr 1
  refine List.map_congr_left (fun e he => ?_)
  have he' := List.mem_range.mp he
  rw [List.getD_eq_getElem?_getD, mul_comm 3 e, getElem?_tab2 he' hc]
  rfl

variable {nA : ℕ} {i j : List ℕ}

theorem forceColumn_eq (hp : PairsOk nA i j) (g : ℕ → ℝ) :
    forceColumn i j (tab i.length g) nA = some (tab nA (fun a => ∑ e ∈ Finset.range i.length,
      g e * ((if nthN j e = a then 1 else 0) - if nthN i e = a then 1 else 0))) := by
  unfold forceColumn
  have hj : ∀ a ∈ j, a < nA := fun a ha => hp.lt a (hp.perm.mem_iff.mpr ha)
  have h1 := bincountW_eq (l := j) (g := g) hj
  rw [← hp.len] at h1
  rw [h1, bincountW_eq hp.lt]
  simp only [Option.bind_eq_bind, Option.bind_some, length_tab, and_self, if_true]
  congr 1
  refine tab_congr (fun a ha => ?_)
  rw [List.getD_eq_getElem?_getD, List.getD_eq_getElem?_getD, getElem?_tab_lt ha, getElem?_tab_lt ha, Option.getD_some,
    Option.getD_some, ← Finset.sum_sub_distrib]
  refine Finset.sum_congr rfl (fun e _ => ?_)
  split_ifs <;> ring

theorem stressEntry_eq {n : ℕ} (g : ℕ → ℝ) (X : ℕ → ℕ → ℝ) (V : ℝ) {b : ℕ} (hb : b < 3) :
    stressEntry (tab n g) ((List.range (n * 3)).map (fun p => X (p / 3) (p % 3))) V b
      = (-∑ e ∈ Finset.range n, g e * X e b) / V := by
  unfold stressEntry
  rw [length_tab, ← Finset.sum_neg_distrib]
  congr 1
  refine Finset.sum_congr rfl (fun e he => ?_)
  have he' := Finset.mem_range.mp he
  rw [List.getD_eq_getElem?_getD, List.getD_eq_getElem?_getD, getElem?_tab_lt he', Option.getD_some,
    List.getElem?_map, List.getElem?_range (by omega), Option.map_some, Option.getD_some]
  have h1 : (3 * e + b) / 3 = e := by omega
  have h2 : (3 * e + b) % 3 = b := by omega
  rw [h1, h2]
  ring

variable {f : File} {sph : ℝ → ℝ → ℝ → ℕ → ℝ} {dsph : ℝ → ℝ → ℝ → ℕ → ℕ → ℝ} {P : Params ℝ} {Z : List ℕ} {X : ℕ → ℕ → ℝ}

/-- Forces on the atoms for edge forces `F`. -/
def atomForce (i j : List ℕ) (F : ℕ → ℕ → ℝ) (a c : ℕ) : ℝ :=
  ∑ e ∈ Finset.range i.length, F e c * ((if nthN j e = a then 1 else 0) - if nthN i e = a then 1 else 0)

theorem calculate_spec (hf : FileOk f) (hP : Loaded f sph dsph P) (hp : PairsOk Z.length i j) (hZ : Known f.atomicNumbers Z)
    {m : ℕ} (hm : i.max? = some m) (hX : Inside f (sysOf f.atomicNumbers Z i j (m + 1)) X) {s : State ℝ} (hs : StOk f s) (V : ℝ) :
    ∃ s', calculate f.zbl P Z V (pairsOf i j X) s = some (s',
      ⟨∑ a ∈ Finset.range (m + 1), energy (netOf f) (confOf f sph (sysOf f.atomicNumbers Z i j (m + 1)) X) a,
       tab (m + 1) (energy (netOf f) (confOf f sph (sysOf f.atomicNumbers Z i j (m + 1)) X)),
       [tab Z.length (fun a => atomForce i j (forceOf f sph dsph (sysOf f.atomicNumbers Z i j (m + 1)) X) a 0),
        tab Z.length (fun a => atomForce i j (forceOf f sph dsph (sysOf f.atomicNumbers Z i j (m + 1)) X) a 1),
        tab Z.length (fun a => atomForce i j (forceOf f sph dsph (sysOf f.atomicNumbers Z i j (m + 1)) X) a 2)],
       toVoigt (fun a b => if a < 3 ∧ b < 3 then
        (-∑ e ∈ Finset.range i.length, forceOf f sph dsph (sysOf f.atomicNumbers Z i j (m + 1)) X e a * X e b) / V else 0)⟩) ∧
      StOk f s' := by
  have hi := max?_le hm
  have hmlt := hp.lt m hi.1
  have hlt : ∀ a ∈ i, a < m + 1 := fun a ha => Nat.lt_succ_of_le (hi.2 a ha)
  obtain ⟨s', e1, e2, e3, e4⟩ := compute_spec hf (sysOf_ok hp hZ hlt (by omega)) hP hX hs
  rw [sysOf_E hlt] at e3
  refine ⟨s', ?_, e4⟩
  unfold calculate
  rw [hP.an, arguments_eq hp hZ hm X]
  simp only [Option.bind_eq_bind, Option.bind_some]
  rw [e1]
  simp only [Option.bind_some, e2, e3, pairsOf]
  rw [column_eq (by omega), column_eq (by omega), column_eq (by omega)]
  simp only [Option.bind_some, forceColumn_eq hp]
  have hsum : (tab (sysOf f.atomicNumbers Z i j (m + 1)).N
      (energy (netOf f) (confOf f sph (sysOf f.atomicNumbers Z i j (m + 1)) X))).sum
      = ∑ a ∈ Finset.range (m + 1), energy (netOf f) (confOf f sph (sysOf f.atomicNumbers Z i j (m + 1)) X) a := by
    rw [show (sysOf f.atomicNumbers Z i j (m + 1)).N = m + 1 from rfl]
    unfold tab
    rfl
  rw [hsum]
  congr 3
  simp [toVoigt, stressEntry_eq]

end Verif.ASE
