import Verif.Lemmas.Kokkos.LoadFeat
import Verif.Lemmas.Kokkos.LoadPoly
import Verif.Lemmas.Kokkos.LoadTab
import Verif.Lemmas.MACE.LoadSpec

/-! # `MACEKokkos::load_from_json` produces the parameters of the network of the file -/

namespace Verif.Kokkos
open Verif.Par Verif.Par.Prog Verif.MACE Verif.Spec Verif.Spline

variable {f : File} {ne : ℕ}

/-! ## Readout network -/

theorem roK_of (f : File) {mlp : Percep ℝ} (hs : mlp.scale = f.ro2scale)
    (hp : PerOk mlp 2 (MLP.width [f.numChannels, 16, 1]) (MLP.entry [f.numChannels, 16, 1] [f.ro2w1, f.ro2w2])) :
    RoK Real.exp mlp f.numChannels (netOf f).read2 (roGrad f) 2 := by
  refine ⟨_, _, hp, by omega, rfl, rfl, fun x => ⟨MLP.hid f.ro2scale (MLP.width [f.numChannels, 16, 1])
    (MLP.entry [f.numChannels, 16, 1] [f.ro2w1, f.ro2w2]) x, MLP.adv f.ro2scale (MLP.width [f.numChannels, 16, 1])
    (MLP.entry [f.numChannels, 16, 1] [f.ro2w1, f.ro2w2]) x, rfl, ?_, ?_, fun i => ⟨?_, fun k _ => ?_⟩⟩⟩
  · intro l b i; rw [hs]; rfl
  · intro l b i; rw [hs]; rfl
  · rw [read2_eq]; rfl
  · unfold roGrad
    have e1 : MLP.width [f.numChannels, 16, 1] 2 = 1 := rfl
    simp only [MLP.Dk, e1, Nat.mod_one, Nat.div_one]
    rfl

theorem ro2_load (hf : FileOk f) : ∃ s, Percep.mk? [f.numChannels, 16, 1] [f.ro2w1, f.ro2w2] f.ro2scale = some s ∧
    RoK Real.exp s f.numChannels (netOf f).read2 (roGrad f) 2 := by
  have hsh : ∀ l ≤ 2, [f.numChannels, 16, 1][l]? = some (MLP.width [f.numChannels, 16, 1] l) := by
    intro l hl
    obtain rfl | rfl | rfl : l = 0 ∨ l = 1 ∨ l = 2 := by omega
    all_goals rfl
  have hw : ∀ l < 2, ∃ w, [f.ro2w1, f.ro2w2][l]? = some w ∧ ∀ i < MLP.width [f.numChannels, 16, 1] (l + 1), ∀ j < MLP.width [f.numChannels, 16, 1] l,
      w[i * MLP.width [f.numChannels, 16, 1] l + j]? = some (MLP.entry [f.numChannels, 16, 1] [f.ro2w1, f.ro2w2] l i j) := by
    intro l hl
    obtain ⟨-, -, hm⟩ := roMatching hf
    have h : l < [f.ro2w1, f.ro2w2].length := hl
    refine ⟨_, List.getElem?_eq_getElem h, fun i hi j hj => ?_⟩
    have hlen := hm l _ (List.getElem?_eq_getElem h)
    have hlt := flat_lt hi hj
    unfold MLP.entry
    rw [List.getElem?_eq_getElem h, Option.getD_some]
    have : i * MLP.width [f.numChannels, 16, 1] l + j < ([f.ro2w1, f.ro2w2][l]).length := by omega
    rw [List.getElem?_eq_getElem this, Option.getD_some]
  obtain ⟨s, h1, h2, h3⟩ := percep_mk f.ro2scale rfl hsh hw
  exact ⟨s, h1, roK_of f h3 h2⟩

/-! ## Radial tables -/

/-- Content of the set of splines of the second layer. -/
def SetOk (s : RadialSet ℝ) (h : ℝ) (m n S : ℕ) (v d : ℕ → ℕ → ℕ → ℝ) : Prop :=
  s.h = h ∧ s.numTypes = m ∧ s.numFun = S ∧
    CoefOk s.c m (n - 1) S (fun a i s j => cub h (v a j i) (d a j i) (v a j (i + 1)) (d a j (i + 1)) s)

theorem radial1_load (hf : FileOk f) : ∃ s, RadialSet.mk? f.splH f.vals1 f.ders1 = some s ∧
    SetOk s f.splH (pairList f.nT).length f.nodes1 (f.phil.length * f.numChannels) (fun a j i => nth (row (tbl f.vals1 a) j) i)
      (fun a j i => nth (row (tbl f.ders1 a) j) i) := by
  have hp := pairs_pos hf
  obtain ⟨r1, r2, r3, r4⟩ := hf.rows1 0 hp
  have hS : 0 < f.phil.length * f.numChannels := Nat.mul_pos hf.nP hf.C
  have ht := tabOk_of (S := f.phil.length * f.numChannels) (n := f.nodes1) hf.vals1 hf.ders1
    (fun i hi => ⟨(hf.rows1 i hi).1, (hf.rows1 i hi).2.1, (hf.rows1 i hi).2.2.1, (hf.rows1 i hi).2.2.2⟩)
  rw [← hf.vals1] at ht
  obtain ⟨s, h1, h2, h3, h4, h5⟩ := radialSet_mk (h := f.splH) (some_tbl (l := f.vals1) (i := 0) (by rw [hf.vals1]; exact hp))
    (some_row (l := tbl f.vals1 0) (i := 0) (by omega)) r1 (r3 _ (row_mem (by omega))) hf.nodes1 ht
  rw [hf.vals1] at h3 h5
  exact ⟨s, h1, h2, h3, h4, h5⟩

theorem scaled_load {m : ℕ} {h : ℝ} {vals ders : List (List ℝ)} {b : Bool} (hm : 0 < m)
    (ho : b = true → 0 < h ∧ vals.length = m ∧ ders.length = m ∧ ∀ i < m, 0 < (row vals i).length ∧ (row vals i).length ≤ (row ders i).length)
    (he : b = true → ∀ w ∈ vals, w.length = (row vals 0).length) :
    ∃ o, (if b then (RadialSet.mk? h (vals.map (fun v => [v])) (ders.map (fun v => [v]))).map some else some none) = some o ∧
      (b = false → o = none) ∧ (b = true → ∃ s, o = some s ∧ SetOk s h m (row vals 0).length 1 (fun a _ i => nth (row vals a) i)
        (fun a _ i => nth (row ders a) i)) := by
  cases b with
  | false => exact ⟨none, rfl, fun _ => rfl, fun h => by simp at h⟩
  | true =>
    obtain ⟨o1, o2, o3, o4⟩ := ho rfl
    have he := he rfl
    have ht := tabOk_map (n := (row vals 0).length) o2 o3 (fun i hi => by
      have e1 := he _ (row_mem (l := vals) (i := i) (by omega))
      have e2 := o4 i hi
      omega)
    have hlen : (vals.map (fun v => [v])).length = m := by simp [o2]
    rw [← hlen] at ht
    obtain ⟨s, h1, h2, h3, h4, h5⟩ := radialSet_mk (h := h) (t0 := [row vals 0]) (by
      rw [List.getElem?_map, some_row (by omega)]; rfl) rfl rfl rfl (o4 0 hm).1 ht
    rw [hlen] at h3 h5
    refine ⟨some s, ?_, fun h => by simp at h, fun _ => ⟨s, rfl, h2, h3, h4, h5⟩⟩
    rw [if_pos rfl, h1]; rfl

/-- Content of the table of the first layer. -/
def R0Ok (f : File) (co : View ℝ) : Prop :=
  ∀ a < f.nT, ∀ b < f.nT, ∀ i < f.nodes0 - 1, ∀ s < 4, ∀ l < f.lmax + 1, ∀ k < f.numChannels,
    co.get [a * f.nT + b, i, s, l * f.numChannels + k] =
      some (∑ k' ∈ Finset.range f.numChannels, (netOf f).mix0 a l k' k *
        (cub f.splH (nth (row (tbl f.vals0 (pairIndex f.nT a b)) (l * f.numChannels + k')) i)
          (nth (row (tbl f.ders0 (pairIndex f.nT a b)) (l * f.numChannels + k')) i)
          (nth (row (tbl f.vals0 (pairIndex f.nT a b)) (l * f.numChannels + k')) (i + 1))
          (nth (row (tbl f.ders0 (pairIndex f.nT a b)) (l * f.numChannels + k')) (i + 1)) s * (netOf f).emb b k'))

theorem R0_load (hf : FileOk f) : ∃ co, R0coeffs f.numChannels f.lmax f.atomicNumbers.length f.splH f.vals0 f.ders0 f.H0w f.A0w = some co ∧
    R0Ok f co := by
  have hp := pairs_pos hf
  obtain ⟨r1, r2, r3, r4⟩ := hf.rows0 0 hp
  have hS : 0 < (f.lmax + 1) * f.numChannels := Nat.mul_pos (Nat.succ_pos _) hf.C
  have ht := tabOk_of (S := (f.lmax + 1) * f.numChannels) (n := f.nodes0) hf.vals0 hf.ders0
    (fun i hi => ⟨(hf.rows0 i hi).1, (hf.rows0 i hi).2.1, (hf.rows0 i hi).2.2.1, (hf.rows0 i hi).2.2.2⟩)
  have hH : ∀ b < f.nT, ∀ k < f.numChannels, f.H0w[b * f.numChannels + k]? = some ((netOf f).emb b k) := fun b hb k hk =>
    some_nth (flat_lt' hb hk hf.H0w)
  have hA : ∀ a < f.nT, ∀ l < f.lmax + 1, ∀ k' < f.numChannels, ∀ k < f.numChannels,
      ((f.A0w[a]?).bind (fun t => t[l]?)).bind (fun t => t[k' * f.numChannels + k]?) = some ((netOf f).mix0 a l k' k) := by
    intro t ht l hl k' hk' k hk
    have h1 : t < f.A0w.length := lt_of_lt_of_le ht hf.A0w.1
    obtain ⟨h2, h3⟩ := hf.A0w.2 _ (tbl_mem h1)
    have hl' : l < (tbl f.A0w t).length := by omega
    rw [some_tbl h1, Option.bind_some, some_row hl', Option.bind_some]
    exact some_nth (flat_lt' hk' hk (h3 _ (row_mem hl')))
  have h0 : f.vals0[0]? = some (tbl f.vals0 0) := some_tbl (by rw [hf.vals0]; exact hp)
  have h00 : (tbl f.vals0 0)[0]? = some (row (tbl f.vals0 0) 0) := some_row (by omega)
  have h0n : (row (tbl f.vals0 0) 0).length = f.nodes0 := r3 _ (row_mem (by omega))
  obtain ⟨co, k1, k2⟩ := R0coeffs_spec hf.C h0 h00 h0n hf.nodes0 ht (fun a ha b hb => pairIndex_lt ha hb) hH hA
  exact ⟨co, k1, k2⟩

/-! ## Product bases -/

theorem spec_coeff_load {srt : List (List (List ℕ)) → List (List (List ℕ))} (hf : FileOk f) (hs : Poly.SortFn srt) {LM : ℕ}
    (hLM : LM < (f.Lmax + 1) * (f.Lmax + 1)) (junk : ℕ → ℝ) (ij : ℕ → ℕ) :
    ∃ spec coeff, (Poly.Poly.mk? srt ((f.lmax + 1) * (f.lmax + 1)) (f.M0w 0 LM 0) (f.M0mon LM)).bind (fun P => specView ij P.edges) = some spec ∧
      M0coeffView srt junk f.nT f.numChannels ((f.lmax + 1) * (f.lmax + 1)) (fun a k => f.M0w a LM k) (f.M0mon LM) = some coeff ∧
      ∃ nd cf, KPoly f.nT ((f.lmax + 1) * (f.lmax + 1)) f.numChannels (fun t => f.M0w t LM) (f.M0mon LM) spec coeff nd cf := by
  obtain ⟨P, n, h1, h2, h3⟩ := kpoly_of (M := (f.lmax + 1) * (f.lmax + 1)) (ws := fun a k => f.M0w a LM k) (mo := f.M0mon LM) hs
    (fun a ha k hk => hf.M0w a ha LM hLM k hk) (hf.M0mon LM hLM).1
    (fun m hm => ((hf.M0mon LM hLM).2 m hm).1) (fun m hm => ((hf.M0mon LM hLM).2 m hm).2) hf.nT hf.C
  obtain ⟨spec, k1, -, -⟩ := specView_spec ij (P 0 0).edges
  obtain ⟨coeff, k2, k3, k4⟩ := M0coeffView_spec (junk := junk) (h1 0 hf.nT 0 hf.C).1 (h1 0 hf.nT 0 hf.C).2.1
    (fun a ha k hk => (h1 a ha k hk).1) (fun a ha k hk => (h1 a ha k hk).2.1)
  refine ⟨spec, coeff, ?_, k2, _, _, (h3 ij spec coeff k1 k3 k4).2⟩
  rw [(h1 0 hf.nT 0 hf.C).1]
  exact k1

theorem M1_load {srt : List (List (List ℕ)) → List (List (List ℕ))} (hf : FileOk f) (hs : Poly.SortFn srt) :
    ∃ P1 P10 spec coeff, loop f.atomicNumbers.length (fun a => pushLoop f.numChannels (fun k =>
        Poly.Poly.mk? srt ((f.lmax + 1) * (f.lmax + 1)) (f.M1w a k) f.M1mon)) [] = some P1 ∧ P1[0]? = some P10 ∧
      specView (fun _ => 0) P10.edges = some spec ∧
      M1coeffView f.atomicNumbers.length f.numChannels ((f.lmax + 1) * (f.lmax + 1) + P10.edges.length) P1 = some coeff ∧
      ∃ nd cf, KPoly f.nT ((f.lmax + 1) * (f.lmax + 1)) f.numChannels f.M1w f.M1mon spec coeff nd cf := by
  obtain ⟨P, n, h1, h2, h3⟩ := kpoly_of (M := (f.lmax + 1) * (f.lmax + 1)) (ws := f.M1w) (mo := f.M1mon) hs
    (fun a ha k hk => hf.M1w a ha k hk) hf.M1mon.1
    (fun m hm => (hf.M1mon.2 m hm).1) (fun m hm => (hf.M1mon.2 m hm).2) hf.nT hf.C
  obtain ⟨spec, k1, -, -⟩ := specView_spec (fun _ => 0) (P 0 0).edges
  obtain ⟨l, p1, -, p2⟩ := append_loop (n := f.nT) (m := f.numChannels)
    (body := fun a => pushLoop f.numChannels (fun k => Poly.Poly.mk? srt ((f.lmax + 1) * (f.lmax + 1)) (f.M1w a k) f.M1mon))
    (Q := fun p q => q = P (p / f.numChannels) (p % f.numChannels)) (fun a ha out => by
      refine pushLoop_spec (Q := fun k q => q = P ((a * f.numChannels + k) / f.numChannels) ((a * f.numChannels + k) % f.numChannels))
        (fun k hk => ⟨_, (h1 a ha k hk).1, ?_⟩) out
      rw [flat_div hk, flat_mod hk]) []
  rw [List.nil_append] at p1
  have p3 : ∀ a < f.nT, ∀ k < f.numChannels, l[a * f.numChannels + k]? = some (P a k) := by
    intro a ha k hk
    obtain ⟨q, e1, e2⟩ := p2 _ (flat_lt ha hk)
    rw [flat_div hk, flat_mod hk] at e2
    rw [e1, e2]
  have p0 : l[0]? = some (P 0 0) := by
    have := p3 0 hf.nT 0 hf.C
    simpa using this
  obtain ⟨coeff, c1, c2, c3, c4⟩ := fill3 (nA := f.nT) (nB := n) (nC := f.numChannels)
    (val := fun a p k => (l[a * f.numChannels + k]?).bind (fun P => P.nodeCoefficients[p]?))
    (x := fun a p k => (P a k).nodeCoefficients[p]?.getD 0) (v := View.new [f.nT, n, f.numChannels] 0) (by
      intro a ha p hp k hk
      have := (h1 a ha k hk).2.1
      rw [p3 a ha k hk, Option.bind_some, List.getElem?_eq_getElem (by omega), Option.getD_some]) rfl (View.new_ok _ _)
  refine ⟨l, P 0 0, spec, coeff, p1, p0, k1, ?_, _, _, (h3 (fun _ => 0) spec coeff k1 c2 c4).2⟩
  rw [← h2, ← c1]
  unfold M1coeffView
  refine loop_congr (fun a _ v => loop_congr (fun p _ v => loop_congr (fun k _ v => ?_) _) _) _
  cases l[a * f.numChannels + k]? <;> rfl

/-! ## Whole file -/

/-- What `load_from_json` leaves in the object. -/
structure LoadedK (f : File) (sph : ℝ → ℝ → ℝ → ℕ → ℝ) (dsph : ℝ → ℝ → ℝ → ℕ → ℕ → ℝ) (P : Params ℝ) : Prop where
  wok : KWOk P (netOf f) f.nT f.phil.length 2 (roGrad f)
  an : P.atomicNumbers = f.atomicNumbers
  sph : P.sph = sph
  dsph : P.dsph = dsph
  nrm : P.nrm = 2 * Real.sqrt Real.pi
  R0h : P.R0h = f.splH
  R0 : R0Ok f P.R0c
  R1 : SetOk P.radial1 f.splH (pairList f.nT).length f.nodes1 (f.phil.length * f.numChannels) (fun a j i => nth (row (tbl f.vals1 a) j) i)
    (fun a j i => nth (row (tbl f.ders1 a) j) i)
  A0 : (f.A0scaled = false → P.A0spl = none) ∧ (f.A0scaled = true → ∃ s, P.A0spl = some s ∧ SetOk s f.A0h (pairList f.nT).length
    (row f.A0vals 0).length 1 (fun a _ i => nth (row f.A0vals a) i) (fun a _ i => nth (row f.A0ders a) i))
  A1 : (f.A1scaled = false → P.A1spl = none) ∧ (f.A1scaled = true → ∃ s, P.A1spl = some s ∧ SetOk s f.A1h (pairList f.nT).length
    (row f.A1vals 0).length 1 (fun a _ i => nth (row f.A1vals a) i) (fun a _ i => nth (row f.A1ders a) i))

theorem weightsView_some {K : Type} [Zero K] {junk : ℕ → K} {nT C n : ℕ} {ws : ℕ → ℕ → List K}
    (h : ∀ a < nT, ∀ k < C, (ws a k).length = n) : ∃ v, weightsView junk nT C n ws = some v := by
  obtain ⟨v, h1, -⟩ := fill3 (nA := nT) (nB := C) (nC := n) (val := fun a k w => (ws a k)[w]?) (x := fun a k w => (ws a k)[w]?.getD 0)
    (v := uninit junk [nT, C, n]) (fun a ha k hk w hw => by
      have := h a ha k hk
      rw [List.getElem?_eq_getElem (by omega), Option.getD_some]) rfl (uninit_ok _ _)
  exact ⟨v, h1⟩

theorem load_spec (hf : FileOk f) (hk : FileOkK f ne) {srt : List (List (List ℕ)) → List (List (List ℕ))} (hs : Poly.SortFn srt)
    (sph : ℝ → ℝ → ℝ → ℕ → ℝ) (dsph : ℝ → ℝ → ℝ → ℕ → ℕ → ℝ) (junk : ℕ → ℕ → ℝ) :
    ∃ P, load srt sph dsph junk ne f = some (P, State.init ℝ) ∧ LoadedK f sph dsph P := by
  have hp := pairs_pos hf
  have net := netOk hf
  obtain ⟨R0c, e1, g1⟩ := R0_load hf
  obtain ⟨r1, e2, g2⟩ := radial1_load hf
  obtain ⟨A0, e3, g3⟩ := scaled_load hp hf.A0s hk.A0s
  obtain ⟨w0, e4, -, -⟩ := pushLoop_spec (n := (f.Lmax + 1) * (f.Lmax + 1)) (f := fun lm => weightsView (junk lm) f.atomicNumbers.length
    f.numChannels (f.M0mon lm).length (fun a k => f.M0w a lm k)) (Q := fun _ _ => True) (fun lm hlm => by
      obtain ⟨v, hv⟩ := weightsView_some (junk := junk lm) (ws := fun a k => f.M0w a lm k) (fun a ha k hk => hf.M0w a ha lm hlm k hk)
      exact ⟨v, hv, trivial⟩) []
  obtain ⟨mo0, e5, -, -⟩ := pushLoop_spec (n := (f.Lmax + 1) * (f.Lmax + 1)) (f := fun lm => monomialsView (f.M0mon lm).length (f.M0mon lm))
    (Q := fun _ _ => True) (fun lm hlm => by
      obtain ⟨v, hv⟩ := monomialsView_some le_rfl (hk.mono0 lm hlm)
      exact ⟨v, hv, trivial⟩) []
  haveI : Nonempty (View ℕ) := ⟨⟨[], []⟩⟩
  haveI : Nonempty (View ℝ) := ⟨⟨[], []⟩⟩
  choose! sp co hsp hco nd cf hkp using fun lm (hlm : lm < (f.Lmax + 1) * (f.Lmax + 1)) => spec_coeff_load hf hs hlm (junk lm) (fun p => ⌊junk lm p⌋₊)
  obtain ⟨Sp, e6, l6, g6⟩ := pushLoop_spec (n := (f.Lmax + 1) * (f.Lmax + 1)) (f := fun lm =>
    (Poly.Poly.mk? srt ((f.lmax + 1) * (f.lmax + 1)) (f.M0w 0 lm 0) (f.M0mon lm)).bind (fun P => specView (fun p => ⌊junk lm p⌋₊) P.edges))
    (Q := fun lm v => v = sp lm) (fun lm hlm => ⟨_, hsp lm hlm, rfl⟩) []
  obtain ⟨Co, e7, l7, g7⟩ := pushLoop_spec (n := (f.Lmax + 1) * (f.Lmax + 1)) (f := fun lm =>
    M0coeffView srt (junk lm) f.atomicNumbers.length f.numChannels ((f.lmax + 1) * (f.lmax + 1)) (fun a k => f.M0w a lm k) (f.M0mon lm))
    (Q := fun lm v => v = co lm) (fun lm hlm => ⟨_, hco lm hlm, rfl⟩) []
  have hH1 : setView ⟨[0, 0, 0], []⟩ f.H1w [f.Lmax + 1, f.numChannels, f.numChannels] = some ⟨[f.Lmax + 1, f.numChannels, f.numChannels],
      f.H1w.take ((f.Lmax + 1) * f.numChannels * f.numChannels)⟩ := by
    unfold setView
    have e : [f.Lmax + 1, f.numChannels, f.numChannels].prod = (f.Lmax + 1) * f.numChannels * f.numChannels := by simp [mul_assoc]
    rw [if_pos (by rw [e]; exact hf.H1w), if_neg (by simp), e]
    rfl
  have hA1v : ∀ l < f.lmax + 1, ∀ i < (netOf f).nE l * f.numChannels, ∀ j < f.numChannels,
      (f.A1w[l]?).bind (fun t => t[i * f.numChannels + j]?) = some (nth (row f.A1w l) (i * f.numChannels + j)) := by
    intro l hl i hi j hj
    have h1 : l < f.A1w.length := by have := hf.A1w.1; omega
    rw [some_row h1, Option.bind_some]
    exact some_nth (lt_of_lt_of_le (flat_lt hi hj) (hf.A1w.2 l (by omega)))
  obtain ⟨A1, e8, l8, g8⟩ := pushLoop_spec (n := f.lmax + 1) (f := A1view junk f.numChannels f.phil f.A1w)
    (Q := fun l q => (∀ i < (netOf f).nE l * f.numChannels, ∀ j < f.numChannels, q.1.get [i, j] = some (nth (row f.A1w l) (i * f.numChannels + j))) ∧
      ∀ i < (netOf f).nE l * f.numChannels, ∀ j < f.numChannels, q.2.get [j, i] = some (nth (row f.A1w l) (i * f.numChannels + j)))
    (fun l hl => A1view_spec rfl (hA1v l hl)) []
  obtain ⟨A1s, e9, g9⟩ := scaled_load hp hf.A1s hk.A1s
  have hM1l : (f.M1w 0 0).length = f.M1mon.length := hf.M1w 0 hf.nT 0 hf.C
  obtain ⟨w1, e10⟩ := weightsView_some (junk := fun _ => (0 : ℝ)) (nT := f.atomicNumbers.length) (C := f.numChannels) (n := (f.M1w 0 0).length)
    (ws := f.M1w) (fun a ha k hk => by rw [hM1l]; exact hf.M1w a ha k hk)
  obtain ⟨m1, e11⟩ := monomialsView_some (n := (f.M1w 0 0).length) (mo := f.M1mon) hM1l.le hk.mono1
  obtain ⟨P1, P10, S1, C1, e12, e13, e14, e15, nd1, cf1, g15⟩ := M1_load hf hs
  obtain ⟨H2, e16, -, -, g16⟩ := fill2 (nA := ne) (nB := f.numChannels * f.numChannels) (val := fun i j => (f.H2wH1[i]?).bind (fun t => t[j]?))
    (x := fun i j => nth (row f.H2wH1 i) j) (v := View.new [ne, f.numChannels * f.numChannels] 0) (fun i hi j hj => by
      have h1 : i < f.H2wH1.length := lt_of_lt_of_le hi hk.elements.2
      rw [some_row h1, Option.bind_some]
      exact some_nth (lt_of_lt_of_le hj (hf.H2wH1.2 _ (row_mem h1)))) rfl (View.new_ok _ _)
  obtain ⟨ro, e17, g17⟩ := ro2_load hf
  rw [List.nil_append] at e4 e5 e6 e7 e8
  suffices h : ∃ q, load srt sph dsph junk ne f = some q ∧ (q.2 = State.init ℝ ∧ LoadedK f sph dsph q.1) by
    obtain ⟨q, h1, h2, h3⟩ := h
    exact ⟨q.1, by rw [h1, ← h2], h3⟩
  unfold load
  refine bind_ex e1 (bind_ex e2 (bind_ex e3 (bind_ex e4 (bind_ex e5 (bind_ex e6 (bind_ex e7 (bind_ex hH1 (bind_ex (phi1Counts_spec hf)
    (bind_ex (phi1Tables_spec hf) (bind_ex e8 (bind_ex e9 (bind_ex e10 (bind_ex e11 (bind_ex e12 (bind_ex e13 (bind_ex e14 (bind_ex e15
    (bind_ex e16 (bind_ex e17 ⟨_, rfl, rfl, ?_⟩)))))))))))))))))))
  refine ⟨?_, rfl, rfl, rfl, rfl, rfl, g1, g2, g3, g9⟩
  constructor
  · rfl
  · rfl
  · rfl
  · rfl
  · refine ⟨nd, cf, fun lm hlm => ?_⟩
    obtain ⟨v, h1, h2⟩ := g6 lm hlm
    obtain ⟨w, h3, h4⟩ := g7 lm hlm
    dsimp only
    rw [List.getD_eq_getElem?_getD, List.getD_eq_getElem?_getD, h1, h3, h2, h4]
    exact hkp lm hlm
  · intro l hl k' hk' k hk
    have hl : l < f.Lmax + 1 := hl
    have hk' : k' < f.numChannels := hk'
    have hk : k < f.numChannels := hk
    have hlt := flat3_lt hl hk' hk
    unfold View.get
    dsimp only
    rw [flat_three hl hk' hk, Option.bind_some, List.getElem?_take_of_lt hlt]
    have e : (l * f.numChannels + k') * f.numChannels + k = l * f.numChannels * f.numChannels + (k' * f.numChannels + k) := by ring
    rw [e] at hlt ⊢
    exact some_nth (lt_of_lt_of_le hlt hf.H1w)
  · have hc : ∀ q < (netOf f).nQ, f.couplings[q]? = some ((netOf f).qp q, (netOf f).q1 q, (netOf f).q2 q) := by
      intro q hq
      have hq : q < f.couplings.length := hq
      simp only [netOf, List.getElem?_eq_getElem hq, Option.getD_some]
    refine ⟨?_, ?_, ?_, fun q hq => (coupling_get hf hq).1, fun q hq => (coupling_get hf hq).2.1, fun q hq => (coupling_get hf hq).2.2, rfl,
      fun p hp => some_nthN (lt_of_lt_of_le (show p < f.cg.length from hp) hf.philme.1), net.cgOut,
      fun p hp => some_nthN (lt_of_lt_of_le (show p < f.cg.length from hp) hf.philelm.1), net.cgIn, fun p hp => some_nth hp⟩
    all_goals
      intro q hq
      dsimp only [cols]
      rw [List.getElem?_map, hc q hq]
      rfl
  · rfl
  · rfl
  · exact fun l _ => blockOf_spec hf l
  · intro l hl e he k' hk' k hk
    obtain ⟨q, h1, h2, h3⟩ := g8 l hl
    dsimp only
    rw [List.getD_eq_getElem?_getD, h1]
    exact h2 _ (flat_lt he hk') k hk
  · intro l hl e he k' hk' k hk
    obtain ⟨q, h1, h2, h3⟩ := g8 l hl
    dsimp only
    rw [List.getD_eq_getElem?_getD, h1]
    exact h3 _ (flat_lt he hk') k hk
  · exact ⟨nd1, cf1, g15⟩
  · intro t ht k' hk1 k hk2
    exact g16 t (lt_of_lt_of_le ht hk.elements.1) _ (flat_lt hk1 hk2)
  · intro k' hk' k hk
    exact some_nth (flat_lt' hk' hk hf.H2wM1)
  · intro t ht
    exact some_nth (lt_of_lt_of_le ht hf.energies)
  · intro k hk
    exact some_nth (lt_of_lt_of_le hk hf.ro1)
  · exact g17

end Verif.Kokkos
