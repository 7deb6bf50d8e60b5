import Verif.Lemmas.Kokkos.PairResults
import Verif.Lemmas.Kokkos.Compute

/-! # The single-process mode of the Kokkos pair style -/

namespace Verif.Kokkos.Pair
open Verif.Par Verif.Par.Prog Verif.Lammps Verif.MACE Verif.Spec

variable {A : Atoms} {L : NList} {rc : ℝ} {mt : List ℕ} {f : File} {sph : ℝ → ℝ → ℝ → ℕ → ℝ} {dsph : ℝ → ℝ → ℝ → ℕ → ℕ → ℝ}
  {P : Kokkos.Params ℝ}

theorem ilist_get (hL : ListOk A L) {ii : ℕ} (hii : ii < L.inum) : L.ilist[ii]? = some (nthN (centres L) ii) := by
  have := hL.inum
  unfold centres nthN
  rw [List.getElem?_take_of_lt hii, List.getElem?_eq_getElem (by omega)]
  rfl

theorem rank_range {n i : ℕ} (h : i < n) : rank (List.range n) i = i := by
  unfold rank
  have := List.nodup_range.idxOf_getElem i (show i < (List.range n).length by simpa using h)
  simpa using this

/-- The graph for a list in natural order. -/
theorem periodic_inOrder (hI : ImagesOk A L) (ho : centres L = List.range L.inum) :
    sysOf A L rc mt (centres L) (original A) = periodic A L rc mt := by
  unfold periodic sysOf
  congr 1
  apply List.map_congr_left
  intro p hp
  obtain ⟨h1, h2⟩ := bonds_mem.mp hp
  have hm := original_mem hI h1 (mem_nbrs_listed h2)
  rw [ho] at hm ⊢
  exact (rank_range (List.mem_range.mp hm)).symm

/-- `compute_no_domain_decomposition`. -/
theorem computeSingle_spec (V : PEnv) (hf : FileOk f) (hP : LoadedK f sph dsph P) (hA : AtomsOk A mt f.nT) (hL : ListOk A L)
    (hI : ImagesOk A L) (ho : centres L = List.range L.inum) (hX : Inside f (periodic A L rc mt) (bondVecs A L rc))
    {s : Kokkos.State ℝ} (hs : StOkK f P s) (w : Mem)
    {fl : Flags} (hv : fl.vAtom = false) {t : Tally} {M m : ℕ} {f0 : ℕ → ℕ → ℝ} {v0 : ℕ → ℝ} (hf0 : t.f = tab2 M 3 f0)
    (hv0 : t.virial = tab m v0) (hM : A.nlocal ≤ M) (hm : 6 ≤ m) (hea : L.inum ≤ t.eatom.length) :
    ∃ w' s', computeSingle V f.zbl P rc mt fl A L w s t = some (w', s',
      { eng := if fl.eGlobal then t.eng + Etot f sph L rc mt A else t.eng
        eatom := if fl.eAtom then tab t.eatom.length (fun i => if i < L.inum then
          nth t.eatom i + energy (netOf f) (confOf f sph (periodic A L rc mt) (bondVecs A L rc)) i else nth t.eatom i) else t.eatom
        f := tab2 M 3 (fun a c => f0 a c + ∑ e ∈ Finset.range (bonds A L rc (centres L)).length,
          forceOf f sph dsph (periodic A L rc mt) (bondVecs A L rc) e c
            * ((if a = original A (endB A L rc (centres L) e) then 1 else 0) - if a = endA A L rc (centres L) e then 1 else 0))
        virial := if fl.vGlobal then tab m (fun k => v0 k + if k < 6 then ∑ e ∈ Finset.range (bonds A L rc (centres L)).length,
          1 / 2 * (bondVecs A L rc e (voigt k).1 * forceOf f sph dsph (periodic A L rc mt) (bondVecs A L rc) e (voigt k).2
            + bondVecs A L rc e (voigt k).2 * forceOf f sph dsph (periodic A L rc mt) (bondVecs A L rc) e (voigt k).1) else 0)
          else tab m v0 }) ∧
      compute V.toEnv P f.zbl ((periodic A L rc mt).graph (bondVecs A L rc)) s = some s' := by
  obtain ⟨w', h1, h2, h3⟩ := graphViews_spec (rc := rc) (node := fun ii => L.ilist[ii]?) (look := mapTag A) (jOf := original A) V hA
    (centres_length hL) hL.entry (fun ii hii => ilist_get hL hii)
    (fun i hi j hj => mapTag_eq hI hi (mem_nbrs_listed hj) (nbrs_lt (hL.entry i hi) hj)) w
  rw [periodic_inOrder hI ho] at h3
  obtain ⟨s', e1, -, e2, e3⟩ := compute_spec V.toEnv hf (periodic_ok (rc := rc) hA hL hI) hP hX hs
  have hN : (periodic A L rc mt).N = L.inum := centres_length hL
  have hE : (periodic A L rc mt).E = (bonds A L rc (centres L)).length := sysOf_E _ _
  refine ⟨w', s', ?_, e1⟩
  have hfin := finish_spec (nE := L.inum) (M := M) (En := energy (netOf f) (confOf f sph (periodic A L rc mt) (bondVecs A L rc)))
    (F := forceOf f sph dsph (periodic A L rc mt) (bondVecs A L rc)) (f0 := f0) (v0 := v0) (eng := t.eng) (ea := t.eatom)
    (energies := s'.energies) (forces := s'.forces) V h2
    (fun i hi => by rw [e2.has (by omega), if_pos (by omega)])
    (fun e he c hc => by
      have := e3.has (p := 3 * e + c) (by omega)
      rw [show (3 * e + c) / 3 = e by omega, show (3 * e + c) % 3 = c by omega] at this
      dsimp only at this
      rw [if_pos (by omega)] at this
      exact this)
    (fun i hi => by have := hL.loc i hi; omega)
    (fun i hi j hj => by
      have := hL.loc _ (original_mem hI hi (mem_nbrs_listed hj))
      omega) hea hm hv
  rw [centres_length hL, ← hf0, ← hv0, show (⟨t.eng, t.eatom, t.f, t.virial⟩ : Tally) = t from rfl] at hfin
  rw [← hv0]
  unfold computeSingle
  refine (bind_of_some h1 _).trans ?_
  dsimp only
  rw [h3]
  exact (bind_of_some e1 _).trans <| (bind_of_some hfin _)

end Verif.Kokkos.Pair
