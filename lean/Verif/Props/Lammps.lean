import Verif.Lemmas.Lammps.Coeff
import Verif.Lemmas.Lammps.CommFlat
import Verif.Lemmas.Lammps.NoMpi
import Verif.Lemmas.Lammps.Single

/-! # Property theorems: LAMMPS pair style, input and data movement (C35 - C38, C41, C42) -/

namespace Verif.Props
open Verif.Lammps Verif.MACE Verif.Spec

/-! ## C35 -/

/-- C35: the accepted argument lists and the mode each selects. -/
theorem C35_settings (n : ℕ) (args : List String) (m : String) : settings n args = some m ↔
    (args = [] ∧ ((n = 1 ∧ m = "no_domain_decomposition") ∨ (n ≠ 1 ∧ m = "mpi_message_passing"))) ∨
    (args = [m] ∧ ((m = "no_domain_decomposition" ∧ n = 1) ∨ m = "mpi_message_passing" ∨ m = "no_mpi_message_passing")) := by
  have hne1 : "mpi_message_passing" ≠ "no_domain_decomposition" := by decide
  have hne2 : "no_mpi_message_passing" ≠ "no_domain_decomposition" := by decide
  match args with
  | [] =>
    by_cases hn : n = 1
    · simp [settings, hn, eq_comm]
    · simp [settings, hn, eq_comm]
  | [a] =>
    by_cases h1 : a = "no_domain_decomposition"
    · subst h1
      by_cases hn : n = 1
      · simp [settings, hn]; rintro rfl; simp
      · simp [settings, hn]; rintro rfl; simp
    · by_cases h2 : a = "mpi_message_passing"
      · subst h2
        simp [settings]; rintro rfl; simp
      · by_cases h3 : a = "no_mpi_message_passing"
        · subst h3
          simp [settings]; rintro rfl; simp
        · simp [settings, h1, h2, h3]; rintro rfl; simp [h1, h2, h3]
  | a :: b :: l => simp [settings]

/-- C35: several processes never run in single-process mode. -/
theorem C35_never_single (n : ℕ) (hn : n ≠ 1) (args : List String) : settings n args ≠ some "no_domain_decomposition" := by
  intro h
  rcases (C35_settings n args _).mp h with ⟨_, h1⟩ | ⟨_, h1⟩
  · rcases h1 with ⟨h2, _⟩ | ⟨_, h2⟩
    · exact hn h2
    · exact absurd h2 (by decide)
  · rcases h1 with ⟨_, h2⟩ | h2 | h2
    · exact hn h2
    · exact absurd h2 (by decide)
    · exact absurd h2 (by decide)

example : settings 4 [] = some "mpi_message_passing" ∧ settings 4 ["no_mpi_message_passing"] = some "no_mpi_message_passing" ∧
    settings 1 [] = some "no_domain_decomposition" ∧ settings 1 ["kokkos"] = none := by decide

/-! ## C36 -/

/-- C36: `pair_coeff` succeeds exactly when every symbol is that of an element of the model; then type `t+1` is mapped to the
first model species with the atomic number of symbol `t`. -/
theorem C36_pair_coeff (Zs : List ℕ) (syms : List String) :
    (∀ mt, coeff Zs syms = some mt → mt.length = syms.length ∧ ∀ (t : ℕ) sym, syms[t]? = some sym →
      ∃ Z i : ℕ, (sym, Z) ∈ elements ∧ mt[t]? = some i ∧ Zs[i]? = some Z ∧ ∀ j < i, Zs[j]? ≠ some Z) ∧
    ((∃ mt, coeff Zs syms = some mt) ↔ ∀ sym ∈ syms, ∃ Z, (sym, Z) ∈ elements ∧ Z ∈ Zs) := by
  refine ⟨fun mt h => ?_, ⟨?_, fun h => ?_⟩⟩
  · have hF := coeff_some.mp h
    refine ⟨hF.length_eq.symm, fun t sym hs => ?_⟩
    obtain ⟨ht, e⟩ := List.getElem?_eq_some_iff.mp hs
    have ht' : t < mt.length := by rw [← hF.length_eq]; exact ht
    have h1 : coeffOne Zs syms[t] = some mt[t] := (List.forall₂_iff_get.mp hF).2 t ht ht'
    rw [e] at h1
    obtain ⟨Z, h2, h3, h4⟩ := coeffOne_some.mp h1
    exact ⟨Z, mt[t], h2, List.getElem?_eq_getElem ht', h3, h4⟩
  · rintro ⟨mt, h⟩ sym hs
    have hF := coeff_some.mp h
    obtain ⟨t, ht, e⟩ := List.getElem_of_mem hs
    have ht' : t < mt.length := by rw [← hF.length_eq]; exact ht
    have h1 : coeffOne Zs syms[t] = some mt[t] := (List.forall₂_iff_get.mp hF).2 t ht ht'
    rw [e] at h1
    obtain ⟨Z, h2, h3, _⟩ := coeffOne_some.mp h1
    exact ⟨Z, h2, List.mem_of_getElem? h3⟩
  · have hone : ∀ sym ∈ syms, ∃ i, coeffOne Zs sym = some i := by
      intro sym hs
      obtain ⟨Z, h1, h2⟩ := h sym hs
      cases hf : findIdx? Z Zs with
      | none => exact absurd h2 (findIdx?_none.mp hf)
      | some i =>
        have := findIdx?_some.mp hf
        exact ⟨i, coeffOne_some.mpr ⟨Z, h1, this.1, this.2⟩⟩
    have : ∃ mt, List.Forall₂ (fun a b => coeffOne Zs a = some b) syms mt := by
      clear h
      induction syms with
      | nil => exact ⟨[], List.Forall₂.nil⟩
      | cons a l ih =>
        obtain ⟨i, hi⟩ := hone a List.mem_cons_self
        obtain ⟨mt, hmt⟩ := ih (fun s hs => hone s (List.mem_cons_of_mem _ hs))
        exact ⟨i :: mt, List.Forall₂.cons hi hmt⟩
    obtain ⟨mt, hmt⟩ := this
    exact ⟨mt, coeff_some.mpr hmt⟩

/-- The table used above: each symbol belongs to one element; the atomic numbers are 1, ..., 118. -/
theorem C36_elements : (elements.map Prod.fst).Nodup ∧ elements.map Prod.snd = List.range' 1 118 :=
  ⟨symbols_nodup, rfl⟩

/-- C36, Kokkos: agrees with the CPU version if there are no more symbols than model elements, all of them in the model (without
duplicates).  Missing: everything else, see `C36_kokkos_violated`. -/
theorem C36_kokkos_partial (Zs : List ℕ) (hd : Zs.Nodup) (syms : List String) (hn : syms.length ≤ Zs.length) (mt : List ℕ)
    (h : coeff Zs syms = some mt) :
    ∃ l, coeffKokkos Zs syms = some l ∧ ∀ t < syms.length, l[t]? = Option.map (fun m : ℕ => (m : ℤ)) mt[t]? := by
  refine ⟨_, coeffKokkos_eq hd h hn, fun t ht => ?_⟩
  have hl : syms.length = mt.length := (coeff_some.mp h).length_eq
  rw [List.getElem?_append_left (by simp; omega), List.getElem?_map]

/-- C36, Kokkos: an element which the model lacks is accepted (as species `-1`); more types than model elements overrun the view
although the CPU version accepts them. -/
theorem C36_kokkos_violated :
    (∃ Zs syms l, coeffKokkos Zs syms = some l ∧ coeff Zs syms = none) ∧
    (∃ Zs syms mt, coeffKokkos Zs syms = none ∧ coeff Zs syms = some mt) :=
  ⟨⟨[1], ["He"], [-1], by decide, by decide⟩, ⟨[1], ["H", "H"], [0, 0], by decide, by decide⟩⟩

example : coeff [1, 6, 8] ["O", "H", "O"] = some [2, 0, 2] ∧ coeff [1, 6, 8] ["N"] = none ∧ coeff [1] ["Xx"] = none := by
  decide +kernel

/-! ## C37 -/

variable {A : Atoms} {L : NList} {rc : ℝ} {mt : List ℕ} {nT : ℕ}

/-- The work arrays describe the edges from the atoms `ns` to their neighbours; `jOf j` and `ix j` are recorded for neighbour
`j`. -/
structure Describes (A : Atoms) (L : NList) (rc : ℝ) (mt ns : List ℕ) (jOf ix : ℕ → ℕ) (idx : List ℕ) (w : Work) : Prop where
  nodes : w.nodeI = ns
  types : w.types = ns.map (species mt A)
  counts : w.nn = ns.map (fun i => (nbrs A L rc i).length)
  atoms : w.neighJ = (bonds A L rc ns).map (fun p => jOf p.2)
  indices : idx = (bonds A L rc ns).map (fun p => ix p.2)
  ntypes : w.ntypes = (bonds A L rc ns).map (fun p => species mt A p.2)
  xyz : w.xyz = (bonds A L rc ns).flatMap (fun p => [disp A p.1 p.2 0, disp A p.1 p.2 1, disp A p.1 p.2 2])
  r : w.r = (bonds A L rc ns).map (fun p => Real.sqrt (∑ c ∈ Finset.range 3, disp A p.1 p.2 c ^ 2))

theorem describes_of {ns : List ℕ} {jOf ix : ℕ → ℕ} {w : Work} {idx : List ℕ} {n : ℕ} (h1 : w.nodeI = ns)
    (h2 : w.neighJ = (bonds A L rc ns).map (fun p => jOf p.2))
    (h3 : { w.graph n with idx := idx } = (sysOf A L rc mt ns ix).graph (vecs A (bonds A L rc ns))) :
    Describes A L rc mt ns jOf ix idx w := by
  refine ⟨h1, congrArg Graph.types h3, congrArg Graph.nn h3, h2, congrArg Graph.idx h3, congrArg Graph.ntypes h3, ?_, ?_⟩
  · have := congrArg Graph.xyz h3
    refine this.trans ?_
    change tab2 _ 3 _ = (bonds A L rc ns).flatMap (dlist A)
    rw [dlist_tab2, sysOf_E]
  · have := congrArg Graph.r h3
    refine this.trans ?_
    change (List.range (sysOf A L rc mt ns ix).E).map _ = _
    rw [sysOf_E]
    apply List.ext_getElem
    · simp
    · intro e he1 he2
      have he : e < (bonds A L rc ns).length := by simpa using he2
      simp only [List.getElem_map, List.getElem_range]
      rw [len_vecs he, d2_eq]

/-- C37: the pairs described are exactly the listed pairs inside the cutoff. -/
theorem C37_bonds (A : Atoms) (L : NList) (rc : ℝ) (ns : List ℕ) (i j : ℕ) : (i, j) ∈ bonds A L rc ns ↔
    i ∈ ns ∧ j ∈ listed L i ∧ ∑ c ∈ Finset.range 3, (pos A j c - pos A i c) ^ 2 < rc ^ 2 := by
  rw [bonds_mem]
  unfold nbrs
  rw [List.mem_filter]
  exact ⟨fun h => ⟨h.1, h.2.1, of_decide_eq_true h.2.2⟩, fun h => ⟨h.1, h.2.1, decide_eq_true h.2.2⟩⟩

/-- C37, single process: every array is filled exactly; neighbours are recorded as their local originals. -/
theorem C37_single (hA : AtomsOk A mt nT) (hL : ListOk A L) (hI : ImagesOk A L) (w : Work) :
    ∃ w', buildSingle rc mt A L w = some w' ∧
      Describes A L rc mt (centres L) (original A) (fun j => rank (centres L) (original A j)) w'.idx w' := by
  obtain ⟨w', h1, h2, h3, h4⟩ := buildSingle_spec (rc := rc) hA hL hI w
  exact ⟨w', h1, describes_of (n := L.inum) h2 h3 h4⟩

/-- C37, message passing between processes. -/
theorem C37_mpi (hA : AtomsOk A mt nT) (hL : ListOk A L) (w : Work) :
    ∃ w', buildMpi rc mt A L w = some w' ∧
      Describes A L rc mt (centres L) (fun j => j) (fun j => j) w'.neighJ w' := by
  obtain ⟨w', h1, h2, h3, h4⟩ := buildMpi_spec (rc := rc) hA hL w
  exact ⟨w', h1, describes_of (n := L.inum) h2 h3 h4⟩

/-- C37, ghost recomputation: the nodes are the listed atoms followed by the other atoms within the cutoff of a listed one. -/
theorem C37_no_mpi (hA : AtomsOk A mt nT) (hL : ListOk A L) (hH : ∀ j ∈ halo A L rc, EntryOk A L j) (old : List ℕ) (w : Work) :
    ∃ w', buildNoMpi rc mt A L old w = some ((halo A L rc).length, w') ∧ ∃ ix : ℕ → ℕ,
      (∀ j ∈ centres L ++ halo A L rc, ix j = rank (centres L ++ halo A L rc) j) ∧
      Describes A L rc mt (centres L ++ halo A L rc) (fun j => j) ix w'.idx w' := by
  obtain ⟨w', h1, h2, h3, ix, h4, _, h5⟩ := buildNoMpi_spec (rc := rc) hA hL hH old w
  exact ⟨w', h1, ix, h4, describes_of h2 h3 h5⟩

/-- Two atoms in a periodic box: atom 0 sees atom 1 and an image (atom 2) of itself; list entries carry special-bond bits. -/
def exAtoms : Atoms where
  nlocal := 2
  nghost := 1
  x := [0, 0, 0, 1, 0, 0, 0, 1, 0]
  type := [1, 2, 1]
  tag := [7, 8, 7]
  map := fun t => if t = 7 then some 0 else if t = 8 then some 1 else none

def exList : NList where
  inum := 2
  ilist := [1, 0]
  num := [2, 1]
  first := [[1 + 2 ^ 30, 2], [0]]

theorem exAtoms_ok : AtomsOk exAtoms [0, 1] 2 := ⟨by decide, by decide, by decide, by decide⟩

theorem exListed : listed exList 0 = [1, 2] ∧ listed exList 1 = [0] := by decide

theorem exList_ok : ListOk exAtoms exList := by
  refine ⟨by decide, by decide, by decide, fun i hi => ?_⟩
  have : i = 1 ∨ i = 0 := by simpa [centres, exList] using hi
  rcases this with rfl | rfl
  · exact ⟨by decide, by decide, by decide, by decide, by decide⟩
  · exact ⟨by decide, by decide, by decide, by decide, by decide⟩

theorem exImages_ok : ImagesOk exAtoms exList := by
  refine ⟨by decide, fun i hi j hj => ?_, ?_⟩
  · have h : j = 0 ∨ j = 1 ∨ j = 2 := by
      have : i = 1 ∨ i = 0 := by simpa [centres, exList] using hi
      rcases this with rfl | rfl
      · rw [exListed.2] at hj; simp at hj; omega
      · rw [exListed.1] at hj; simp at hj; omega
    rcases h with rfl | rfl | rfl
    · exact ⟨0, rfl, by decide⟩
    · exact ⟨1, rfl, by decide⟩
    · exact ⟨0, rfl, by decide⟩
  · intro i hi
    have : i = 1 ∨ i = 0 := by simpa [centres, exList] using hi
    rcases this with rfl | rfl <;> rfl

/-- The hypotheses of C37 are met by a list in the order 1, 0; the single-process graph has three edges. -/
example : AtomsOk exAtoms [0, 1] 2 ∧ ListOk exAtoms exList ∧ ImagesOk exAtoms exList ∧
    bonds exAtoms exList 2 (centres exList) = [(1, 0), (0, 1), (0, 2)] := by
  refine ⟨exAtoms_ok, exList_ok, exImages_ok, ?_⟩
  have h0 : nbrs exAtoms exList 2 0 = [1, 2] := by
    simp [nbrs, exListed.1, disp, pos, exAtoms, nth, Finset.sum_range_succ]
  have h1 : nbrs exAtoms exList 2 1 = [0] := by
    simp [nbrs, exListed.2, disp, pos, exAtoms, nth, Finset.sum_range_succ]
  simp [bonds, centres, exList] at *
  simp [exList, h0, h1]

/-! ## C38 -/

/-- Sum of component `c` over all atoms. -/
noncomputable def totalComp (f : List ℝ) (c : ℕ) : ℝ := ∑ p ∈ Finset.range f.length with p % 3 = c, nth f p

theorem totalComp_ad {f f' : List ℝ} {p c : ℕ} {v : ℝ} (h : ad f p v = some f') :
    f'.length = f.length ∧ totalComp f' c = totalComp f c + if p % 3 = c then v else 0 := by
  unfold ad md at h
  cases hp : f[p]? with
  | none => rw [hp] at h; cases h
  | some x =>
    rw [hp] at h
    cases h
    obtain ⟨hlt, hx⟩ := List.getElem?_eq_some_iff.mp hp
    refine ⟨by simp, ?_⟩
    unfold totalComp
    rw [List.length_set]
    have hval : ∀ q, nth (f.set p (x + v)) q = nth f q + if q = p then v else 0 := by
      intro q
      unfold nth
      by_cases e : q = p
      · subst e; rw [List.getElem?_set_self hlt, hp]; simp
      · rw [List.getElem?_set_ne (Ne.symm e), if_neg e, add_zero]
    simp only [hval, Finset.sum_add_distrib]
    congr 1
    rw [Finset.sum_ite_eq']
    simp [hlt]

/-- C38: whatever the edges and edge forces, the force loop does not change the total force. -/
theorem C38_lammps (n : ℕ) (w : Work) (F f f' : List ℝ) (h : scatter n w F f = some f') (c : ℕ) :
    f'.length = f.length ∧ totalComp f' c = totalComp f c := by
  unfold scatter at h
  obtain ⟨q, h1, h2⟩ := Option.bind_eq_some_iff.mp h
  cases h2
  refine loop_pres h1 (fun q => q.2.length = f.length ∧ totalComp q.2 c = totalComp f c) ⟨rfl, rfl⟩ (fun ii _ t t' ht hb => ?_)
  obtain ⟨i, hi, hb⟩ := Option.bind_eq_some_iff.mp hb
  obtain ⟨m, hm, hb⟩ := Option.bind_eq_some_iff.mp hb
  rw [edgesFrom_eq] at hb
  obtain ⟨g, hg, rfl⟩ := Option.map_eq_some_iff.mp hb
  refine loop_pres hg (fun f' => f'.length = f.length ∧ totalComp f' c = totalComp f c) ht (fun e _ u u' hu he => ?_)
  unfold scatterEdge at he
  simp only [Option.bind_eq_bind] at he
  obtain ⟨j, _, he⟩ := Option.bind_eq_some_iff.mp he
  obtain ⟨f0, _, he⟩ := Option.bind_eq_some_iff.mp he
  obtain ⟨f1, _, he⟩ := Option.bind_eq_some_iff.mp he
  obtain ⟨f2, _, he⟩ := Option.bind_eq_some_iff.mp he
  obtain ⟨a0, b0, he⟩ := Option.bind_eq_some_iff.mp he
  obtain ⟨a1, b1, he⟩ := Option.bind_eq_some_iff.mp he
  obtain ⟨a2, b2, he⟩ := Option.bind_eq_some_iff.mp he
  obtain ⟨a3, b3, he⟩ := Option.bind_eq_some_iff.mp he
  obtain ⟨a4, b4, he⟩ := Option.bind_eq_some_iff.mp he
  have k0 := totalComp_ad (c := c) b0
  have k1 := totalComp_ad (c := c) b1
  have k2 := totalComp_ad (c := c) b2
  have k3 := totalComp_ad (c := c) b3
  have k4 := totalComp_ad (c := c) b4
  have k5 := totalComp_ad (c := c) he
  refine ⟨by rw [k5.1, k4.1, k3.1, k2.1, k1.1, k0.1]; exact hu.1, ?_⟩
  rw [k5.2, k4.2, k3.2, k2.2, k1.2, k0.2, hu.2]
  have e0 : ∀ i, 3 * i % 3 = 0 := fun i => by omega
  have e1 : ∀ i, (3 * i + 1) % 3 = 1 := fun i => by omega
  have e2 : ∀ i, (3 * i + 2) % 3 = 2 := fun i => by omega
  simp only [e0, e1, e2]
  split_ifs <;> ring

/-- Edges `0 → 1` and `1 → 1` with arbitrary forces. -/
example : (scatter 2 ⟨[], [1, 1], [], [], [], [], [0, 1], [1, 1]⟩ [1, 2, 3, 4, 5, 6] [0, 0, 0, 0, 0, 0]).isSome := by
  rfl

/-! ## C41, C42 -/

/-- C41: the message has `n` times `comm_forward` entries; after it the ghost rows `first, ..., first + n - 1` are the rows of the
sent atoms; nothing else changes.  `rb` is the receiver's buffer. -/
theorem C41_forward (C n first : ℕ) (list : List ℕ) (H buf : List ℝ) (hn : n ≤ list.length)
    (hl : ∀ ii < n, (nthN list ii + 1) * C ≤ H.length) (hb : n * C ≤ buf.length) :
    ∃ buf', packForward C n list H buf = some (n * commSize "mpi_message_passing" C, buf') ∧ buf'.length = buf.length ∧
      ∀ rb G : List ℝ, rb.take (n * C) = buf'.take (n * C) → (first + n) * C ≤ G.length →
        ∃ G', unpackForward C n first rb G = some G' ∧ G'.length = G.length ∧
          (∀ ii < n, ∀ k < C, G'[(first + ii) * C + k]? = H[nthN list ii * C + k]?) ∧
          ∀ p, (p < first * C ∨ (first + n) * C ≤ p) → G'[p]? = G[p]? := by
  obtain ⟨b', h1, h2, h3, _⟩ := packForward_flat hn hl hb
  refine ⟨b', h1, h2, fun rb G hrb hG => ?_⟩
  have hlen : n * C ≤ rb.length := by
    have := congrArg List.length hrb
    rw [List.length_take, List.length_take] at this
    omega
  obtain ⟨G', g1, g2, g3, g4⟩ := unpackForward_flat (buf := rb) hG hlen
  refine ⟨G', g1, g2, fun ii hii k hk => ?_, g4⟩
  have hp : ii * C + k < n * C := by
    have := Nat.mul_le_mul_right C (show ii + 1 ≤ n by omega)
    rw [Nat.succ_mul] at this
    omega
  have hC : 0 < C := by omega
  rw [Nat.add_mul, Nat.add_assoc, g3 _ hp]
  have hget : rb[ii * C + k]? = b'[ii * C + k]? := by
    rw [← List.getElem?_take_of_lt hp, hrb, List.getElem?_take_of_lt hp]
  have hx := hl ii hii
  rw [Nat.succ_mul] at hx
  rw [nth, hget, h3 _ hp, Nat.mul_comm ii C, Nat.mul_add_div hC, Nat.div_eq_of_lt hk, Nat.add_zero, Nat.mul_add_mod,
    Nat.mod_eq_of_lt hk, get_nth (by omega : nthN list ii * C + k < H.length)]
  rfl

/-- The adjoint rows added to an atom by one reverse message. -/
theorem reverse_sum (C n first : ℕ) (list : List ℕ) (g : ℕ → ℝ) (a k : ℕ) (hk : k < C) :
    ∑ p ∈ Finset.range (n * C), (if nthN list (p / C) * C + p % C = a * C + k then g (first * C + p) else 0)
      = ∑ ii ∈ Finset.range n, if nthN list ii = a then g ((first + ii) * C + k) else 0 := by
  have hC : 0 < C := by omega
  induction n with
  | zero => simp
  | succ n ih =>
    rw [Nat.succ_mul, Finset.sum_range_add, ih, Finset.sum_range_succ]
    congr 1
    have : ∀ k' ∈ Finset.range C, (if nthN list ((n * C + k') / C) * C + (n * C + k') % C = a * C + k
        then g (first * C + (n * C + k')) else 0) = if k' = k then (if nthN list n = a then g ((first + n) * C + k) else 0) else 0 := by
      intro k' hk'
      have hk'' := Finset.mem_range.mp hk'
      rw [Nat.mul_comm n C, Nat.mul_add_div hC, Nat.div_eq_of_lt hk'', Nat.add_zero, Nat.mul_add_mod, Nat.mod_eq_of_lt hk'']
      by_cases e : k' = k
      · subst e
        rw [if_pos rfl]
        have : nthN list n * C + k' = a * C + k' ↔ nthN list n = a := by
          constructor
          · intro h; exact Nat.eq_of_mul_eq_mul_right hC (by omega)
          · rintro rfl; rfl
        simp only [this]
        rw [Nat.add_mul, Nat.mul_comm C n, Nat.add_assoc]
      · rw [if_neg e, if_neg]
        intro h
        have h1 : (nthN list n * C + k') % C = (a * C + k) % C := by rw [h]
        rw [Nat.mul_comm, Nat.mul_add_mod, Nat.mul_comm, Nat.mul_add_mod, Nat.mod_eq_of_lt hk'', Nat.mod_eq_of_lt hk] at h1
        exact e h1
    rw [Finset.sum_congr rfl this, Finset.sum_ite_eq', if_pos (Finset.mem_range.mpr hk)]

/-- C42: a reverse message adds the adjoint of each ghost to its owner, also when an atom was sent several times. -/
theorem C42_reverse (C n first : ℕ) (list : List ℕ) (G buf : List ℝ) (hn : n ≤ list.length) (hG : (first + n) * C ≤ G.length)
    (hb : n * C ≤ buf.length) :
    ∃ buf', packReverse C n first G buf = some (n * commSize "mpi_message_passing" C, buf') ∧ buf'.length = buf.length ∧
      ∀ rb H : List ℝ, rb.take (n * C) = buf'.take (n * C) → (∀ ii < n, (nthN list ii + 1) * C ≤ H.length) →
        ∃ H', unpackReverse C n list rb H = some H' ∧ H'.length = H.length ∧
          ∀ a, ∀ k < C, nth H' (a * C + k) = nth H (a * C + k)
            + ∑ ii ∈ Finset.range n, if nthN list ii = a then nth G ((first + ii) * C + k) else 0 := by
  obtain ⟨b', h1, h2, h3, _⟩ := packReverse_flat hG hb
  refine ⟨b', h1, h2, fun rb H hrb hl => ?_⟩
  have hlen : n * C ≤ rb.length := by
    have := congrArg List.length hrb
    rw [List.length_take, List.length_take] at this
    omega
  obtain ⟨H', g1, g2, g3⟩ := unpackReverse_flat (buf := rb) hn hl hlen
  refine ⟨H', g1, g2, fun a k hk => ?_⟩
  rw [g3, ← reverse_sum C n first list (nth G) a k hk]
  congr 1
  refine Finset.sum_congr rfl (fun p hp => ?_)
  have hp' := Finset.mem_range.mp hp
  have : nth rb p = nth G (first * C + p) := by
    have hget : rb[p]? = b'[p]? := by rw [← List.getElem?_take_of_lt hp', hrb, List.getElem?_take_of_lt hp']
    rw [nth, hget, h3 p hp']
    rfl
  rw [this]

/-- C42: reverse communication is the transpose of forward communication.  Forward communication of features `H` into the ghost
rows, paired with ghost adjoints `G`, equals `H` paired with what reverse communication adds to the owners. -/
theorem C42_transpose (C n first M : ℕ) (list : List ℕ) (H G fw buf : List ℝ) (hn : n ≤ list.length)
    (hl : ∀ ii < n, nthN list ii < M) (hH : H.length = M * C) (hG : (first + n) * C ≤ G.length) (hfw : (first + n) * C ≤ fw.length)
    (hb : n * C ≤ buf.length) :
    ∃ b1 fw' b2 H', packForward C n list H buf = some (n * C, b1) ∧ unpackForward C n first b1 fw = some fw' ∧
      packReverse C n first G buf = some (n * C, b2) ∧ unpackReverse C n list b2 (List.replicate (M * C) 0) = some H' ∧
      ∑ ii ∈ Finset.range n, ∑ k ∈ Finset.range C, nth fw' ((first + ii) * C + k) * nth G ((first + ii) * C + k)
        = ∑ a ∈ Finset.range M, ∑ k ∈ Finset.range C, nth H (a * C + k) * nth H' (a * C + k) := by
  have hl' : ∀ ii < n, (nthN list ii + 1) * C ≤ M * C := fun ii hii => Nat.mul_le_mul_right C (hl ii hii)
  obtain ⟨b1, h1, e1, h2⟩ := C41_forward C n first list H buf hn (fun ii hii => by rw [hH]; exact hl' ii hii) hb
  obtain ⟨fw', h3, _, h4, _⟩ := h2 b1 fw rfl hfw
  obtain ⟨b2, h5, _, h6⟩ := C42_reverse C n first list G buf hn hG hb
  obtain ⟨H', h7, _, h8⟩ := h6 b2 (List.replicate (M * C) 0) rfl (fun ii hii => by simpa using hl' ii hii)
  refine ⟨b1, fw', b2, H', h1, h3, h5, h7, ?_⟩
  have hz : ∀ p, nth (List.replicate (M * C) (0 : ℝ)) p = 0 := by
    intro p
    unfold nth
    rw [List.getElem?_replicate]
    split_ifs <;> rfl
  have hL : ∀ ii ∈ Finset.range n, ∑ k ∈ Finset.range C, nth fw' ((first + ii) * C + k) * nth G ((first + ii) * C + k)
      = ∑ k ∈ Finset.range C, nth H (nthN list ii * C + k) * nth G ((first + ii) * C + k) := by
    intro ii hii
    refine Finset.sum_congr rfl (fun k hk => ?_)
    congr 1
    unfold nth
    rw [h4 ii (Finset.mem_range.mp hii) k (Finset.mem_range.mp hk)]
  have hR : ∀ a ∈ Finset.range M, ∑ k ∈ Finset.range C, nth H (a * C + k) * nth H' (a * C + k)
      = ∑ ii ∈ Finset.range n, if nthN list ii = a then
        ∑ k ∈ Finset.range C, nth H (nthN list ii * C + k) * nth G ((first + ii) * C + k) else 0 := by
    intro a _
    have : ∀ k ∈ Finset.range C, nth H (a * C + k) * nth H' (a * C + k) = ∑ ii ∈ Finset.range n,
        if nthN list ii = a then nth H (nthN list ii * C + k) * nth G ((first + ii) * C + k) else 0 := by
      intro k hk
      rw [h8 a k (Finset.mem_range.mp hk), hz, zero_add, Finset.mul_sum]
      refine Finset.sum_congr rfl (fun ii _ => ?_)
      by_cases e : nthN list ii = a
      · rw [if_pos e, if_pos e, e]
      · rw [if_neg e, if_neg e, mul_zero]
    rw [Finset.sum_congr rfl this, Finset.sum_comm]
    refine Finset.sum_congr rfl (fun ii _ => ?_)
    by_cases e : nthN list ii = a
    · simp [e]
    · simp [e]
  refine (Finset.sum_congr rfl hL).trans (Eq.trans ?_ (Finset.sum_congr rfl hR).symm)
  rw [Finset.sum_comm (s := Finset.range M)]
  refine Finset.sum_congr rfl (fun ii hii => ?_)
  rw [Finset.sum_ite_eq, if_pos (Finset.mem_range.mpr (hl ii (Finset.mem_range.mp hii)))]

/-- Atom 1 of three sent twice, two features per atom, into ghost rows 3 and 4. -/
example : (2 : ℕ) ≤ [1, 1].length ∧ (∀ ii < 2, nthN [1, 1] ii < 3) ∧ ([1, 2, 3, 4, 5, 6] : List ℝ).length = 3 * 2 ∧
    (3 + 2) * 2 ≤ (List.replicate 10 (1 : ℝ)).length ∧ 2 * 2 ≤ (List.replicate 4 (0 : ℝ)).length := by
  refine ⟨by decide, by decide, rfl, by simp, by simp⟩

end Verif.Props
