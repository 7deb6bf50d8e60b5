import Verif.Lemmas.Kokkos.Compute

/-! # `reverse_H2` and `reverse_Phi1` for all values of their flags and sizes of the old adjoints -/

namespace Verif.Kokkos
open Verif.Par Verif.Par.Prog Verif.MACE Verif.Spec

section resize
variable {K : Type} [Zero K] {v w : View K} {n m l : ℕ}

theorem extent_of {x : ℕ} {ms : List ℕ} (h : v.ext = x :: ms) : v.extent 0 = x := by
  unfold View.extent; rw [h]; rfl

theorem resizeView_get {x : ℕ} {F : ℕ → ℕ → ℕ → K} (h : G3 v n m l F) (hx : n ≤ x) : G3 (resizeView v [x, m, l]) n m l F := by
  intro i hi j hj k hk
  have hf : flat [x, m, l] [i, j, k] 0 = some ((i * m + j) * l + k) := by
    simp only [flat]
    rw [if_pos (by omega), if_pos hj, if_pos hk, zero_mul, zero_add]
  have hp : (i * m + j) * l + k < [x, m, l].prod := by
    simp only [List.prod_cons, List.prod_nil, mul_one]
    rw [← mul_assoc]
    exact flat3_lt (by omega) hj hk
  have hu : unflat [x, m, l] ((i * m + j) * l + k) = [i, j, k] := by
    have hl : 0 < l := by omega
    have h1 : ((i * m + j) * l + k) = i * (m * l) + (j * l + k) := by ring
    have h2 : j * l + k < m * l := flat_lt hj hk
    simp only [unflat, List.prod_cons, List.prod_nil, mul_one, Nat.div_one]
    rw [h1, Nat.mul_comm i, Nat.mul_add_div (by omega), Nat.div_eq_of_lt h2, Nat.mul_add_mod, Nat.mod_eq_of_lt h2, flat_div hk, flat_mod hk,
      Nat.add_zero]
  unfold View.get
  show (flat [x, m, l] [i, j, k] 0).bind _ = _
  rw [hf]
  show (tab [x, m, l].prod _)[_]? = _
  simp only [tab, List.getElem?_map, List.getElem?_range hp, Option.map_some]
  rw [hu, h i hi j hj k hk]
  rfl

theorem resizeLike_ext (h : Room v [m, l] 0) (hw : Room w [m, l] n) :
    Room (resizeLike v w) [m, l] n ∧ w.extent 0 ≤ (resizeLike v w).extent 0 := by
  unfold resizeLike
  split
  · obtain ⟨h1, x, ms, h2, h3, h4⟩ := hw
    refine ⟨⟨by simp [View.Ok, resizeView], x, ms, h2, h3, h4⟩, ?_⟩
    rw [extent_of h2, extent_of (v := resizeView v w.ext) h2]
  · rename_i hlt
    obtain ⟨h1, x, ms, h2, h3, h4⟩ := hw
    rw [extent_of h2] at hlt ⊢
    exact ⟨h.extent (by omega), by omega⟩

theorem resizeLike_get {F : ℕ → ℕ → ℕ → K} (hF : G3 v n m l F) (hw : Room w [m, l] n) : G3 (resizeLike v w) n m l F := by
  unfold resizeLike
  split
  · obtain ⟨h1, x, ms, h2, h3, h4⟩ := hw
    rw [extent_of h2] at *
    have hms : ms = [m, l] := h4.resolve_left (by omega)
    subst hms
    rw [h2]
    exact resizeView_get hF h3
  · exact hF

/-- What the stages with a flag `z` start from. -/
def prepared (z : Bool) (v w : View K) : View K := if z then (resizeLike v w).fill 0 else resizeLike v w

theorem prepared_ok (z : Bool) (h : Room v [m, l] 0) (hw : Room w [m, l] n) {F : ℕ → ℕ → ℕ → K}
    (hF : (z = true ∧ F = fun _ _ _ => 0) ∨ (z = false ∧ G3 v n m l F)) :
    Room (prepared z v w) [m, l] n ∧ w.extent 0 ≤ (prepared z v w).extent 0 ∧ G3 (prepared z v w) n m l F := by
  obtain ⟨r1, r2⟩ := resizeLike_ext h hw
  unfold prepared
  rcases hF with ⟨rfl, rfl⟩ | ⟨rfl, hF⟩
  · exact ⟨r1.fill 0, r2, G3.fill r1⟩
  · exact ⟨r1, r2, resizeLike_get hF hw⟩

theorem prepared_fix {z : Bool} (h : w.extent 0 ≤ (prepared z v w).extent 0) : resizeLike (prepared z v w) w = prepared z v w := by
  conv_lhs => unfold resizeLike
  exact if_neg (by omega)

end resize

section flags
variable {K : Type} [Field K]

theorem reverseH2_flag (V : Env K) (C N : ℕ) (types : List ℕ) (wH1 : View K) (wM1 : List K) (z : Bool) (H1 M1 H2a H1a M1a : View K)
    (h : H1.extent 0 ≤ (prepared z H1a H1).extent 0) :
    reverseH2 V C N types wH1 wM1 z H1 M1 H2a H1a M1a = reverseH2 V C N types wH1 wM1 false H1 M1 H2a (prepared z H1a H1) M1a := by
  unfold reverseH2
  rw [prepared_fix h]
  rfl

/-- The forces `reverse_Phi1` starts from. -/
def preparedF (z : Bool) (v : View K) (n : ℕ) : View K :=
  let v := if v.ext.prod < n then resizeView v [n] else v
  if z then v.fill 0 else v

theorem preparedF_fix (z : Bool) (v : View K) (n : ℕ) :
    (if (preparedF z v n).ext.prod < n then resizeView (preparedF z v n) [n] else preparedF z v n) = preparedF z v n := by
  refine if_neg ?_
  have : (preparedF z v n).ext = (if v.ext.prod < n then resizeView v [n] else v).ext := by
    unfold preparedF; cases z <;> rfl
  rw [this]
  split
  · simp [resizeView]
  · assumption

theorem reversePhi1_flag (V : Env K) (C M nQ : ℕ) (cg : List K) (t : Tables) (g : MACE.Graph K) (zf zh : Bool)
    (R1 R1d Y Yg H1 Phi1r dPhi1 dPhi1r forces H1a : View K) (h : H1.extent 0 ≤ (prepared zh H1a H1).extent 0) :
    reversePhi1 V C M nQ cg t g zf zh R1 R1d Y Yg H1 Phi1r dPhi1 dPhi1r forces H1a
      = reversePhi1 V C M nQ cg t g false false R1 R1d Y Yg H1 Phi1r dPhi1 dPhi1r (preparedF zf forces g.xyz.length) (prepared zh H1a H1) := by
  unfold reversePhi1
  rw [prepared_fix h, preparedF_fix]
  rfl

end flags

theorem preparedF_ok {v : View ℝ} {Ex : ℕ} (z : Bool) (hv : Vec v) {F : ℕ → ℕ → ℝ} (hF : (z = true ∧ F = fun _ _ => 0) ∨ (z = false ∧ Fc v Ex F)) :
    Fc (preparedF z v (3 * Ex)) Ex F := by
  rcases hF with ⟨rfl, rfl⟩ | ⟨rfl, hF⟩
  · obtain ⟨h1, x, h2⟩ := hv
    unfold preparedF
    dsimp only
    rw [if_pos rfl]
    split
    · exact fill_cells (x := 3 * Ex) (by simp [View.Ok, resizeView]) rfl le_rfl
    · rename_i h
      exact fill_cells h1 h2 (by rw [h2] at h; simpa using h)
  · obtain ⟨h1, x, h2, h3, h4⟩ := hF
    unfold preparedF
    dsimp only
    rw [if_neg (by simp), if_neg (by rw [h2]; simpa using h3)]
    exact ⟨h1, x, h2, h3, h4⟩

section scaled
variable {K : Type} [Field K] [LinearOrder K] [FloorRing K] {nT NH : ℕ} {g : MACE.Graph K} {c : Conf K} {n : ℕ → ℕ}

/-- `scaledFwd_spec` with an environment of its own for the reverse stage. -/
theorem scaledFwd_spec' (V V' : Env K) {C M : ℕ} {spl : Option (RadialSet K)} {X : ℕ → ℕ → K} {R : ℕ → K} (hg : GOk g nT NH c n X R) (hE : ScX spl g)
    {sc dv : ℕ → K} (hs : ScK spl g c R sc dv) {sv sd A : View K} (hr : Twin sv sd [1] 0) (hA : Room A [M, C] g.N)
    {F : ℕ → ℕ → ℕ → K} (hF : G3 A g.N M C F) :
    ∃ sv' sd' A', scaledFwd V C M spl g sv sd A = some (sv', sd', A') ∧ Twin sv' sd' [1] 0 ∧ Room A' [M, C] g.N ∧
      G3 A' g.N M C (fun i lm k => F i lm k / sc i) ∧
      ∀ (d : DConf K), d.R = R → GOk g nT NH c n d.X d.R → ∀ {Aa forces : View K} {aa : ℕ → ℕ → ℕ → K} {Fo : ℕ → ℕ → K},
        Room Aa [M, C] g.N → G3 Aa g.N M C aa → Fc forces g.Ex Fo →
        ∃ f' Aa', scaledBwd V' C M spl g sv' sd' A' forces Aa = some (f', Aa') ∧
          Fc f' g.Ex (fun e b => Fo e b + onE g.nn g.N (forceS M C d sc dv (fun i lm k => F i lm k / sc i) aa) e b) ∧
          Room Aa' [M, C] g.N ∧ G3 Aa' g.N M C (fun i lm k => aa i lm k / sc i) := by
  cases spl with
  | some s =>
    obtain ⟨h1, v, h2, h3⟩ := hs
    obtain ⟨sv', sd', A', k1, k2, k3, k4, k5, k6⟩ := computeScaled_spec V (C := C) (M := M) h1 hg (hE s rfl) hr h2 h3 hA
    refine ⟨sv', sd', A', k1, k2.mono (Nat.zero_le _), k5, k6 F hF, ?_⟩
    rintro d - hg' Aa forces aa Fo r1 r2 r3
    exact reverseScaled_spec V' hg' k3 k4 h3 (k6 F hF) r1 r2 r3
  | none =>
    obtain ⟨h1, h2⟩ := hs
    refine ⟨sv, sd, A, rfl, hr, hA, hF.congr (fun i hi lm _ k _ => by rw [h1 i hi, div_one]), ?_⟩
    rintro d - hg' Aa forces aa Fo r1 r2 r3
    refine ⟨forces, Aa, rfl, ?_, r1, r2.congr (fun i hi lm _ k _ => by rw [h1 i hi, div_one])⟩
    refine All.congr r3 (fun p => ?_)
    simp [onE, forceS, h2]

end scaled

end Verif.Kokkos
