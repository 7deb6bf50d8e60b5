import Verif.Spec.Domain
import Verif.Lemmas.Lammps.Decomp

/-! # Lemmas: a division in space is a valid division -/

namespace Verif.Lammps
open Verif.MACE Verif.Spec

theorem len_add_le (x y : ℕ → ℝ) : len (fun c => x c + y c) ≤ len x + len y := by
  unfold len
  have hx : 0 ≤ ∑ a ∈ Finset.range 3, x a ^ 2 := Finset.sum_nonneg fun _ _ => sq_nonneg _
  have hy : 0 ≤ ∑ a ∈ Finset.range 3, y a ^ 2 := Finset.sum_nonneg fun _ _ => sq_nonneg _
  have hc : ∑ a ∈ Finset.range 3, x a * y a ≤ Real.sqrt (∑ a ∈ Finset.range 3, x a ^ 2) * Real.sqrt (∑ a ∈ Finset.range 3, y a ^ 2) := by
    rw [← Real.sqrt_mul hx]
    exact Real.le_sqrt_of_sq_le (Finset.sum_mul_sq_le_sq_mul_sq _ _ _)
  refine Real.sqrt_le_iff.mpr ⟨by positivity, ?_⟩
  have e : ∑ a ∈ Finset.range 3, (x a + y a) ^ 2
      = ∑ a ∈ Finset.range 3, x a ^ 2 + 2 * ∑ a ∈ Finset.range 3, x a * y a + ∑ a ∈ Finset.range 3, y a ^ 2 := by
    rw [Finset.mul_sum, ← Finset.sum_add_distrib, ← Finset.sum_add_distrib]
    exact Finset.sum_congr rfl fun a _ => by ring
  rw [e, add_sq, Real.sq_sqrt hx, Real.sq_sqrt hy]
  nlinarith

theorem len_neg (x : ℕ → ℝ) : len (fun c => -x c) = len x := by
  unfold len
  simp only [neg_sq]

variable {ι : Type} [AddCommGroup ι] {M : Matter ι} {rc skin : ℝ}

theorem Matter.far_triangle (x : ℕ → ℕ → ℝ) (b : ℕ) (s : ι) (b' : ℕ) (s' : ι) (b'' : ℕ) (s'' : ι) :
    M.far x b s b'' s'' ≤ M.far x b s b' s' + M.far x b' s' b'' s'' := by
  unfold Matter.far
  have h := len_add_le (fun c => (x b' c + M.T s' c) - (x b c + M.T s c)) (fun c => (x b'' c + M.T s'' c) - (x b' c + M.T s' c))
  refine le_trans (le_of_eq (congrArg len (funext fun c => ?_))) h
  ring

/-- Distances shrank by at most the skin. -/
theorem Matter.far_built (hm : M.Moved skin) {b b' : ℕ} (hb : b < M.N) (hb' : b' < M.N) (s s' : ι) :
    M.far M.built b s b' s' ≤ M.far M.now b s b' s' + skin := by
  have h1 := hm b hb
  have h2 := hm b' hb'
  rw [← len_neg] at h2
  have e := len_add_le (fun c => (M.now b' c + M.T s' c) - (M.now b c + M.T s c)) (fun c => (M.now b c - M.built b c) + -(M.now b' c - M.built b' c))
  have e2 := len_add_le (fun c => M.now b c - M.built b c) (fun c => -(M.now b' c - M.built b' c))
  unfold Matter.far
  have : len (fun c => (M.built b' c + M.T s' c) - (M.built b c + M.T s c)) = len (fun c =>
      ((M.now b' c + M.T s' c) - (M.now b c + M.T s c)) + ((M.now b c - M.built b c) + -(M.now b' c - M.built b' c))) :=
    congrArg len (funext fun c => by ring)
  rw [this]
  linarith

/-- Translating both atoms changes nothing. -/
theorem Matter.far_shift (x : ℕ → ℕ → ℝ) (b : ℕ) (s : ι) (b' : ℕ) (s' t : ι) :
    M.far x b (s + t) b' (s' + t) = M.far x b s b' s' := by
  unfold Matter.far
  refine congrArg len (funext fun c => ?_)
  rw [M.add, M.add]
  ring

section
variable {A : Atoms} {L : NList} {id : ℕ → ℕ} {sh : ℕ → ι} {nodes : List ℕ} {mt : List ℕ}

theorem Holder.disp (h : Holder M rc skin A L id sh nodes) {i j : ℕ} (hi : i < A.nlocal + A.nghost) (hj : j < A.nlocal + A.nghost) {c : ℕ}
    (hc : c < 3) : disp A i j c = (M.now (id j) c + M.T (sh j) c) - (M.now (id i) c + M.T (sh i) c) := by
  unfold Lammps.disp
  rw [h.pos j hj c hc, h.pos i hi c hc]

theorem Holder.close (h : Holder M rc skin A L id sh nodes) (hrc : 0 < rc) {i j : ℕ} (hi : i < A.nlocal + A.nghost)
    (hj : j < A.nlocal + A.nghost) :
    ∑ c ∈ Finset.range 3, Lammps.disp A i j c ^ 2 < rc ^ 2 ↔ M.far M.now (id i) (sh i) (id j) (sh j) < rc := by
  unfold Matter.far len
  rw [Real.sqrt_lt' hrc]
  rw [Finset.sum_congr rfl fun c hc => by rw [h.disp hi hj (Finset.mem_range.mp hc)]]

/-- The neighbours of image `(b, s)`. -/
def Matter.Near (M : Matter ι) (rc : ℝ) (b : ℕ) (s : ι) (q : ℕ × ι) : Prop :=
  q.1 < M.N ∧ q ≠ (b, s) ∧ M.far M.now b s q.1 q.2 < rc

/-- All that atom `i` should see is held. -/
def Sees (M : Matter ι) (rc : ℝ) (A : Atoms) (id : ℕ → ℕ) (sh : ℕ → ι) (i : ℕ) : Prop :=
  ∀ q, M.Near rc (id i) (sh i) q → ∃ j < A.nlocal + A.nghost, id j = q.1 ∧ sh j = q.2

theorem mem_nbrs' {i j : ℕ} : j ∈ nbrs A L rc i ↔ j ∈ listed L i ∧ ∑ c ∈ Finset.range 3, Lammps.disp A i j c ^ 2 < rc ^ 2 := by
  unfold nbrs
  simp [List.mem_filter]

/-- The labels of the neighbours are the images in reach, each once. -/
theorem Holder.labels (h : Holder M rc skin A L id sh nodes) (hrc : 0 < rc) (hm : M.Moved skin) {i : ℕ} (hi : i ∈ nodes)
    (he : EntryOk A L i) (hs : Sees M rc A id sh i) :
    ((nbrs A L rc i).map (fun j => (id j, sh j))).Nodup ∧
    ∀ q, q ∈ (nbrs A L rc i).map (fun j => (id j, sh j)) ↔ M.Near rc (id i) (sh i) q := by
  have hlt : ∀ j ∈ nbrs A L rc i, j < A.nlocal + A.nghost := fun j hj => he.nb j (mem_nbrs'.mp hj).1
  obtain ⟨o1, o2⟩ := h.once i hi
  constructor
  · have hn : (nbrs A L rc i).Nodup := o1.filter _
    refine List.Nodup.map_on (fun j hj k hk e => ?_) hn
    obtain ⟨e1, e2⟩ := Prod.mk.inj e
    exact h.inj j (hlt j hj) k (hlt k hk) e1 e2
  · intro q
    rw [List.mem_map]
    constructor
    · rintro ⟨j, hj, rfl⟩
      have hj' := hlt j hj
      refine ⟨h.atom j hj', fun e => ?_, (h.close hrc he.lt hj').mp (mem_nbrs'.mp hj).2⟩
      obtain ⟨e1, e2⟩ := Prod.mk.inj e
      have := h.inj j hj' i he.lt e1 e2
      subst this
      exact o2 (mem_nbrs'.mp hj).1
    · intro hq
      obtain ⟨j, hj, e1, e2⟩ := hs q hq
      obtain ⟨q1, q2, q3⟩ := hq
      refine ⟨j, mem_nbrs'.mpr ⟨h.complete i hi j hj ?_ ?_, ?_⟩, by rw [e1, e2]⟩
      · rintro rfl
        exact q2 (Prod.ext e1.symm e2.symm)
      · rw [e1, e2]
        have := Matter.far_built hm (h.atom i he.lt) q1 (sh i) q.2
        linarith
      · rw [h.close hrc he.lt hj, e1, e2]
        exact q3

/-- What an atom sees, in terms of images. -/
noncomputable def Matter.sight (M : Matter ι) (mt : List ℕ) (b : ℕ) (s : ι) (q : ℕ × ι) : (Fin 3 → ℝ) × ℕ × ℕ :=
  (fun c => (M.now q.1 c + M.T q.2 c) - (M.now b c + M.T s c), nthN mt (M.typ q.1 - 1), q.1)

theorem Holder.view (h : Holder M rc skin A L id sh nodes) {i : ℕ} (he : EntryOk A L i) {κ : ℕ → ℕ}
    (hκ : ∀ j < A.nlocal + A.nghost, κ j = id j) :
    Lammps.view A L rc mt κ i = ((nbrs A L rc i).map (fun j => (id j, sh j))).map (M.sight mt (id i) (sh i)) := by
  unfold Lammps.view
  rw [List.map_map]
  refine List.map_congr_left fun j hj => ?_
  have hj' := he.nb j (mem_nbrs'.mp hj).1
  simp only [Function.comp, Matter.sight, species, h.type j hj', hκ j hj']
  congr 1
  funext c
  exact h.disp he.lt hj' c.2

end

/-- Two atoms which are images of one atom, and for which everything in reach is held, see the same. -/
theorem Holder.same {A A' : Atoms} {L L' : NList} {id id' : ℕ → ℕ} {sh sh' : ℕ → ι} {nodes nodes' : List ℕ} {mt : List ℕ}
    (h : Holder M rc skin A L id sh nodes) (h' : Holder M rc skin A' L' id' sh' nodes') (hrc : 0 < rc) (hm : M.Moved skin) {i i' : ℕ}
    (hi : i ∈ nodes) (hi' : i' ∈ nodes') (he : EntryOk A L i) (he' : EntryOk A' L' i') (hs : Sees M rc A id sh i)
    (hs' : Sees M rc A' id' sh' i') (e : id i = id' i') {κ κ' : ℕ → ℕ} (hκ : ∀ j < A.nlocal + A.nghost, κ j = id j)
    (hκ' : ∀ j < A'.nlocal + A'.nghost, κ' j = id' j) :
    (Lammps.view A L rc mt κ i).Perm (Lammps.view A' L' rc mt κ' i') := by
  obtain ⟨n1, m1⟩ := h.labels hrc hm hi he hs
  obtain ⟨n2, m2⟩ := h'.labels hrc hm hi' he' hs'
  rw [h.view he hκ, h'.view he' hκ']
  have hp : ((nbrs A L rc i).map (fun j => (id j, sh j))).Perm
      (((nbrs A' L' rc i').map (fun j => (id' j, sh' j))).map (fun q => (q.1, q.2 + (sh i - sh' i')))) := by
    refine (List.perm_ext_iff_of_nodup n1 (n2.map (fun a b hab => ?_))).mpr fun q => ?_
    · obtain ⟨a1, a2⟩ := Prod.mk.inj hab
      exact Prod.ext a1 (add_right_cancel a2)
    · rw [m1, List.mem_map]
      constructor
      · rintro ⟨q1, q2, q3⟩
        refine ⟨(q.1, q.2 - (sh i - sh' i')), (m2 _).mpr ⟨q1, fun e' => q2 ?_, ?_⟩, by simp⟩
        · obtain ⟨e1, e2⟩ := Prod.mk.inj e'
          refine Prod.ext (e1.trans e.symm) ?_
          rw [sub_eq_iff_eq_add] at e2
          rw [e2]
          simp
        · rw [← Matter.far_shift (M := M) M.now (id' i') (sh' i') q.1 _ (sh i - sh' i')]
          simpa [← e] using q3
      · rintro ⟨r, hr, rfl⟩
        obtain ⟨r1, r2, r3⟩ := (m2 r).mp hr
        refine ⟨r1, fun e' => r2 ?_, ?_⟩
        · obtain ⟨e1, e2⟩ := Prod.mk.inj e'
          refine Prod.ext (e1.trans e) ?_
          have : r.2 = sh i - (sh i - sh' i') := eq_sub_of_add_eq e2
          rw [this]
          simp
        · have := Matter.far_shift (M := M) M.now (id' i') (sh' i') r.1 r.2 (sh i - sh' i')
          rw [add_sub_cancel] at this
          rw [e]
          exact this.trans_lt r3
  refine (hp.map _).trans (List.Perm.of_eq ?_)
  rw [List.map_map]
  refine List.map_congr_left fun q _ => ?_
  simp only [Function.comp, Matter.sight]
  congr 1
  funext c
  have ht : M.T (q.2 + (sh i - sh' i')) c = M.T q.2 c + (M.T (sh i) c - M.T (sh' i') c) := by
    have : M.T (sh i) c = M.T (sh i - sh' i') c + M.T (sh' i') c := by rw [← M.add]; simp
    rw [M.add, this]
    ring
  rw [ht, e]
  ring

/-- With ghosts up to `rc + skin`, local atoms see everything. -/
theorem Holder.sees_local {A : Atoms} {L : NList} {id : ℕ → ℕ} {sh : ℕ → ι} {nodes : List ℕ} {cut : ℝ}
    (h : Holder M rc skin A L id sh nodes) (hm : M.Moved skin) (hc : Covers M cut A id sh) (hcut : rc + skin ≤ cut) {o : ℕ}
    (ho : o < A.nlocal) : Sees M rc A id sh o := by
  rintro q ⟨q1, -, q3⟩
  rw [h.loc o ho] at q3
  refine hc o ho q.1 q1 q.2 ?_
  have := Matter.far_built hm (h.atom o (by omega)) q1 0 q.2
  linarith

/-- With ghosts up to `2 rc + skin`, also the neighbours of local atoms see everything. -/
theorem Holder.sees_halo {A : Atoms} {L : NList} {id : ℕ → ℕ} {sh : ℕ → ι} {nodes : List ℕ} {cut : ℝ}
    (h : Holder M rc skin A L id sh nodes) (hrc : 0 < rc) (hm : M.Moved skin) (hc : Covers M cut A id sh) (hcut : 2 * rc + skin ≤ cut) {o i : ℕ}
    (ho : o < A.nlocal) (hi : i < A.nlocal + A.nghost) (hn : i ∈ nbrs A L rc o) : Sees M rc A id sh i := by
  rintro q ⟨q1, -, q3⟩
  have hoi := (h.close hrc (by omega) hi).mp (mem_nbrs'.mp hn).2
  rw [h.loc o ho] at hoi
  refine hc o ho q.1 q1 q.2 ?_
  have h1 := Matter.far_built hm (h.atom o (by omega)) q1 0 q.2
  have h2 := Matter.far_triangle (M := M) M.now (id o) 0 (id i) (sh i) q.1 q.2
  linarith

end Verif.Lammps
