import Verif.Model.Kokkos.Attributes
import Verif.Lemmas.Kokkos.Doomed
import Verif.Lemmas.Kokkos.Tools
import Verif.Props.KokkosStages

/-! # Attributes of the Python classes: reading and assigning (C111), evaluations after assignments (C112) -/

namespace Verif.Props
open Verif.MACE Verif.Spec Verif.Par

section roundtrip
variable {K : Type}

/-- C111, `MACE`: an assigned attribute reads as assigned, the others are unchanged. -/
theorem C111_cpu (s : State K) (a : Attr) (x : List K) :
    getAttr (setAttr s a x) a = x ∧ ∀ b ≠ a, getAttr (setAttr s a x) b = getAttr s b := by
  refine ⟨by cases a <;> rfl, fun b hb => ?_⟩
  cases a <;> cases b <;> first | rfl | exact absurd rfl hb

theorem attrView_with (s : Kokkos.State K) (a : Attr) (v : View K) :
    Kokkos.attrView (Kokkos.withView s a v) a = v ∧ ∀ b ≠ a, Kokkos.attrView (Kokkos.withView s a v) b = Kokkos.attrView s b := by
  refine ⟨by cases a <;> rfl, fun b hb => ?_⟩
  cases a <;> cases b <;> first | rfl | exact absurd rfl hb

variable [Zero K] {Q : Kokkos.Params K} {s s' : Kokkos.State K} {a : Attr} {x : List K}

/-- The view after an assignment. -/
theorem setAttr_view (hw : 0 < (Kokkos.shape Q a).prod) :
    Kokkos.setAttr Q s a x = some (Kokkos.withView s a
      ⟨x.length / (Kokkos.shape Q a).prod :: Kokkos.shape Q a, x.take (x.length / (Kokkos.shape Q a).prod * (Kokkos.shape Q a).prod)⟩) := by
  unfold Kokkos.setAttr Kokkos.setView
  rw [if_neg (by omega), List.prod_cons, if_pos (Nat.div_mul_le_self _ _), Option.map_some]
  congr 3
  split
  · assumption
  · rfl

theorem getAttr_mk {n : ℕ} {d : List K} (hd : d.length = n * (Kokkos.shape Q a).prod)
    (hv : Kokkos.attrView s a = ⟨n :: Kokkos.shape Q a, d⟩) : Kokkos.getAttr Q s a = some d := by
  unfold Kokkos.getAttr
  rw [hv]
  cases a <;> simp only [Kokkos.shape, List.length_cons, List.length_nil, List.prod_cons, List.prod_nil, mul_one, zero_add, Nat.reduceAdd] at hd ⊢
  all_goals first
    | (subst hd; exact Kokkos.ofView1_eq d)
    | exact Kokkos.ofView2_eq d _ _ hd
    | exact Kokkos.ofView3_eq d _ _ _ (by rw [hd, mul_assoc])

/-- C111, `MACEKokkos`, any length: the attribute reads as the longest part of the array made of complete rows, the others are unchanged. -/
theorem C111_kokkos_reads (hw : 0 < (Kokkos.shape Q a).prod) :
    ∃ s', Kokkos.setAttr Q s a x = some s' ∧
      Kokkos.getAttr Q s' a = some (x.take (x.length / (Kokkos.shape Q a).prod * (Kokkos.shape Q a).prod)) ∧
      ∀ b ≠ a, Kokkos.getAttr Q s' b = Kokkos.getAttr Q s b := by
  refine ⟨_, setAttr_view hw, getAttr_mk ?_ (attrView_with s a _).1, fun b hb => ?_⟩
  · rw [List.length_take, min_eq_left (Nat.div_mul_le_self _ _)]
  · unfold Kokkos.getAttr
    rw [(attrView_with s a _).2 b hb]

/-- C111, what holds for `MACEKokkos`: arrays made of complete rows read as assigned.  Missing: arrays of other lengths
(`C111_exact`, `C111_violated`). -/
theorem C111_kokkos_partial (hw : 0 < (Kokkos.shape Q a).prod) (hx : (Kokkos.shape Q a).prod ∣ x.length) :
    ∃ s', Kokkos.setAttr Q s a x = some s' ∧ Kokkos.getAttr Q s' a = some x ∧ ∀ b ≠ a, Kokkos.getAttr Q s' b = Kokkos.getAttr Q s b := by
  obtain ⟨s', h1, h2, h3⟩ := C111_kokkos_reads (s := s) (x := x) hw
  rw [Nat.div_mul_cancel hx, List.take_length] at h2
  exact ⟨s', h1, h2, h3⟩

/-- C111, exactly: an assigned array reads as assigned if and only if it consists of complete rows. -/
theorem C111_exact (h : Kokkos.setAttr Q s a x = some s') : Kokkos.getAttr Q s' a = some x ↔ (Kokkos.shape Q a).prod ∣ x.length := by
  have hw : 0 < (Kokkos.shape Q a).prod := by
    by_contra hc
    unfold Kokkos.setAttr at h
    rw [if_pos (by omega)] at h
    cases h
  obtain ⟨t, h1, h2, -⟩ := C111_kokkos_reads (s := s) (x := x) hw
  rw [h] at h1
  cases h1
  rw [h2, Option.some.injEq]
  constructor
  · intro e
    have := congrArg List.length e
    rw [List.length_take, min_eq_left (Nat.div_mul_le_self _ _)] at this
    exact ⟨_, (this.symm.trans (mul_comm _ _))⟩
  · intro hd
    rw [Nat.div_mul_cancel hd, List.take_length]

end roundtrip

section reading
variable {v : View ℝ} {x : List ℝ} {N n m : ℕ}

/-- C111, reading results: a view whose first rows are `x` (the conclusion of the theorems C108) reads as a list beginning with `x`; the rest
are the further rows of the view. -/
theorem C111_reads_results :
    (Holds1 v x → ∃ y, Kokkos.ofView1 v = some y ∧ x <+: y) ∧
    (∀ N n, Holds2 v x N n → (∃ k, v.ext = [k, n]) → ∃ y, Kokkos.ofView2 v = some y ∧ x <+: y ∧ y.length = v.extent 0 * n) ∧
    ∀ N n m, Holds3 v x N n m → (∃ k, v.ext = [k, n, m]) → ∃ y, Kokkos.ofView3 v = some y ∧ x <+: y ∧ y.length = v.extent 0 * (n * m) := by
  obtain ⟨E, d⟩ := v
  refine ⟨?_, ?_, ?_⟩
  · rintro ⟨h1, k, h2, h3, h4⟩
    dsimp only at h2
    subst h2
    have hd : d.length = k := by simpa [View.Ok] using h1
    subst hd
    refine ⟨d, Kokkos.ofView1_eq d, ?_⟩
    rw [List.prefix_iff_eq_take]
    refine List.ext_getElem? (fun p => ?_)
    by_cases hp : p < x.length
    · rw [← h4 p hp, List.getElem?_take_of_lt hp]
      unfold View.get
      rw [flat_one (by omega : p < d.length)]
      rfl
    · rw [List.getElem?_eq_none (by omega), List.getElem?_eq_none (by simp; omega)]
  · rintro N n ⟨⟨h1, y, ms, h2, h3, -⟩, h5, h6⟩ ⟨k, hk⟩
    dsimp only at h2 hk
    subst hk
    rw [List.cons.injEq] at h2
    obtain ⟨rfl, -⟩ := h2
    have hd : d.length = k * n := by simpa [View.Ok] using h1
    refine ⟨d, Kokkos.ofView2_eq d k n hd, ?_, hd⟩
    rw [List.prefix_iff_eq_take]
    refine List.ext_getElem? (fun p => ?_)
    by_cases hp : p < x.length
    · have hn : 0 < n := by
        rcases Nat.eq_zero_or_pos n with h0 | h0
        · rw [h5, h0] at hp; omega
        · exact h0
      have hi : p / n < N := Nat.div_lt_of_lt_mul (by rw [mul_comm]; omega)
      have := h6 (p / n) hi (p % n) (Nat.mod_lt _ hn)
      rw [show p / n * n + p % n = p by rw [mul_comm]; exact Nat.div_add_mod p n] at this
      rw [← this, List.getElem?_take_of_lt hp]
      unfold View.get
      rw [flat_two (hi.trans_le h3) (Nat.mod_lt _ hn), show p / n * n + p % n = p by rw [mul_comm]; exact Nat.div_add_mod p n]
      rfl
    · rw [List.getElem?_eq_none (by omega), List.getElem?_eq_none (by simp; omega)]
  · rintro N n m ⟨⟨h1, y, ms, h2, h3, -⟩, h5, h6⟩ ⟨k, hk⟩
    dsimp only at h2 hk
    subst hk
    rw [List.cons.injEq] at h2
    obtain ⟨rfl, -⟩ := h2
    have hd : d.length = k * n * m := by simpa [View.Ok, mul_assoc] using h1
    refine ⟨d, Kokkos.ofView3_eq d k n m hd, ?_, by rw [hd, mul_assoc]; rfl⟩
    rw [List.prefix_iff_eq_take]
    refine List.ext_getElem? (fun p => ?_)
    by_cases hp : p < x.length
    · have hm : 0 < m := by
        rcases Nat.eq_zero_or_pos m with h0 | h0
        · rw [h5, h0] at hp; omega
        · exact h0
      have hn : 0 < n := by
        rcases Nat.eq_zero_or_pos n with h0 | h0
        · rw [h5, h0] at hp; omega
        · exact h0
      have hq : p / m < N * n := Nat.div_lt_of_lt_mul (by rw [mul_comm]; omega)
      have hi : p / m / n < N := Nat.div_lt_of_lt_mul (by rw [mul_comm]; omega)
      have e : (p / m / n * n + p / m % n) * m + p % m = p := by
        rw [show p / m / n * n + p / m % n = p / m by rw [mul_comm]; exact Nat.div_add_mod _ n, mul_comm]
        exact Nat.div_add_mod p m
      have := h6 (p / m / n) hi (p / m % n) (Nat.mod_lt _ hn) (p % m) (Nat.mod_lt _ hm)
      rw [e] at this
      rw [← this, List.getElem?_take_of_lt hp]
      unfold View.get
      rw [flat_three (hi.trans_le h3) (Nat.mod_lt _ hn) (Nat.mod_lt _ hm), e]
      rfl
    · rw [List.getElem?_eq_none (by omega), List.getElem?_eq_none (by simp; omega)]

end reading

variable {f : File} {ne : ℕ} {sph : ℝ → ℝ → ℝ → ℕ → ℝ} {dsph : ℝ → ℝ → ℝ → ℕ → ℕ → ℝ} {srt : List (List (List ℕ)) → List (List (List ℕ))}
  {junk : ℕ → ℕ → ℝ}

/-! ## Evaluations after assignments -/

/-- The array assigned to `R0` or `R1` has at most as many rows as the view of the derivatives. -/
def Covered (Q : Kokkos.Params ℝ) (s : Kokkos.State ℝ) (a : Attr) (x : List ℝ) : Prop :=
  (a = .R0 → x.length / ((Q.lmax + 1) * Q.C) ≤ s.R0d.extent 0) ∧ (a = .R1 → x.length / (Q.phil.length * Q.C) ≤ s.R1d.extent 0)

/-- States of the object after evaluations and assignments of attributes in any order; the assignments to `R0` and `R1` are covered. -/
inductive HistA (f : File) (Q : Kokkos.Params ℝ) : Kokkos.State ℝ → Prop
  | init : HistA f Q (Kokkos.State.init ℝ)
  | call {V : Kokkos.Env ℝ} {s s' : Kokkos.State ℝ} {T : Sys} {X : ℕ → ℕ → ℝ} : HistA f Q s → SysOk f T → Inside f T X →
      Kokkos.compute V Q f.zbl (T.graph X) s = some s' → HistA f Q s'
  | assign {s s' : Kokkos.State ℝ} {a : Attr} {x : List ℝ} : HistA f Q s → Covered Q s a x → Kokkos.setAttr Q s a x = some s' → HistA f Q s'

theorem setAttr_ok {Q : Kokkos.Params ℝ} (hP : Kokkos.LoadedK f sph dsph Q) {s s' : Kokkos.State ℝ} {a : Attr} {x : List ℝ}
    (hs : Kokkos.StOkK f Q s) (hc : Covered Q s a x) (h : Kokkos.setAttr Q s a x = some s') : Kokkos.StOkK f Q s' := by
  have hw : 0 < (Kokkos.shape Q a).prod := by
    by_contra hc
    unfold Kokkos.setAttr at h
    rw [if_pos (by omega)] at h
    cases h
  rw [setAttr_view hw] at h
  cases h
  have hk := hP.wok
  obtain ⟨hs, he, hf⟩ := hs
  have hok : (⟨x.length / (Kokkos.shape Q a).prod :: Kokkos.shape Q a,
      x.take (x.length / (Kokkos.shape Q a).prod * (Kokkos.shape Q a).prod)⟩ : View ℝ).Ok := by
    unfold View.Ok
    dsimp only
    rw [List.length_take, List.prod_cons, min_eq_left (Nat.div_mul_le_self _ _)]
  have hr : ∀ ns, Kokkos.shape Q a = ns → Kokkos.Room (⟨x.length / (Kokkos.shape Q a).prod :: Kokkos.shape Q a,
      x.take (x.length / (Kokkos.shape Q a).prod * (Kokkos.shape Q a).prod)⟩ : View ℝ) ns 0 :=
    fun ns e => ⟨hok, _, _, rfl, Nat.zero_le _, Or.inr e⟩
  cases a with
  | nodeEnergies => exact ⟨{ hs with }, ⟨hok, _, rfl⟩, hf⟩
  | nodeForces => exact ⟨{ hs with }, he, ⟨hok, _, rfl⟩⟩
  | R0 =>
    refine ⟨{ hs with R0 := ⟨hr _ ?_, hs.R0.2.1, ?_⟩ }, he, hf⟩
    · show [_] = _; rw [hk.lmax, hk.C]
    · have := hc.1 rfl
      simpa [Kokkos.withView, View.extent, Kokkos.shape] using this
  | R1 =>
    refine ⟨{ hs with R1 := ⟨hr _ ?_, hs.R1.2.1, ?_⟩ }, he, hf⟩
    · show [_] = _; rw [hk.len, hk.C]
    · have := hc.2 rfl
      simpa [Kokkos.withView, View.extent, Kokkos.shape] using this
  | A0 => exact ⟨{ hs with A0 := hr _ (by show [_, _] = _; rw [hk.M, hk.C]) }, he, hf⟩
  | A0adj => exact ⟨{ hs with A0a := hr _ (by show [_, _] = _; rw [hk.M, hk.C]) }, he, hf⟩
  | M0 => exact ⟨{ hs with M0 := hr _ (by show [_, _] = _; rw [hk.LM, hk.C]) }, he, hf⟩
  | M0adj => exact ⟨{ hs with M0a := hr _ (by show [_, _] = _; rw [hk.LM, hk.C]) }, he, hf⟩
  | H1 => exact ⟨{ hs with H1 := hr _ (by show [_, _] = _; rw [hk.LM, hk.C]) }, he, hf⟩
  | H1adj => exact ⟨{ hs with H1a := hr _ (by show [_, _] = _; rw [hk.LM, hk.C]) }, he, hf⟩
  | Phi1 => exact ⟨{ hs with Phi1 := hr _ (by show [_, _] = _; rw [hk.nOut, hk.C]) }, he, hf⟩
  | Phi1adj => exact ⟨{ hs with dPhi1 := hr _ (by show [_, _] = _; rw [hk.nOut, hk.C]) }, he, hf⟩
  | A1 => exact ⟨{ hs with A1 := hr _ (by show [_, _] = _; rw [hk.M, hk.C]) }, he, hf⟩
  | A1adj => exact ⟨{ hs with A1a := hr _ (by show [_, _] = _; rw [hk.M, hk.C]) }, he, hf⟩
  | M1 => exact ⟨{ hs with M1 := hr _ (by show [_] = _; rw [hk.C]) }, he, hf⟩
  | M1adj => exact ⟨{ hs with M1a := hr _ (by show [_] = _; rw [hk.C]) }, he, hf⟩
  | H2 => exact ⟨{ hs with H2 := ⟨hok, _, _, rfl⟩ }, he, hf⟩
  | H2adj => exact ⟨{ hs with H2a := ⟨hok, _, _, rfl⟩ }, he, hf⟩

theorem HistA.ok (hf : FileOk f) {Q : Kokkos.Params ℝ} (hP : Kokkos.LoadedK f sph dsph Q) {s : Kokkos.State ℝ} (h : HistA f Q s) :
    Kokkos.StOkK f Q s := by
  induction h with
  | init => exact Kokkos.init_ok f Q
  | @call V _ _ _ _ _ hT hX e ih =>
    obtain ⟨s', h1, h2, -⟩ := Kokkos.compute_spec V hf hT hP hX ih
    rw [h1] at e
    cases e
    exact h2
  | assign _ hc e ih => exact setAttr_ok hP ih hc e

/-- C112, `MACE`: assignments between evaluations do not change the results of an evaluation. -/
theorem C112_cpu (hf : FileOk f) (hs : Poly.SortFn srt) :
    ∃ P s0, load srt sph dsph f = some (P, s0) ∧ ∀ T X, SysOk f T → Inside f T X → ∃ E F : List ℝ, ∀ s, Hist f P s0 s → ∀ a x,
      Hist f P s0 (setAttr s a x) ∧ ∃ s', computeNodeEnergiesForces f.zbl P (T.graph X) (setAttr s a x) = some s' ∧
        s'.nodeEnergies = E ∧ s'.nodeForces = F := by
  obtain ⟨P, s0, h1, h2, h3⟩ := load_spec hf hs sph dsph
  refine ⟨P, s0, h1, fun T X hT hX => ⟨tab T.N (energy (netOf f) (confOf f sph T X)), tab2 T.E 3 (forceOf f sph dsph T X), fun s hh a x => ?_⟩⟩
  have hh' : Hist f P s0 (setAttr s a x) := hh.buffers (by cases a <;> rfl) (by cases a <;> rfl) (by cases a <;> rfl)
  obtain ⟨s', a1, a2, a3, -⟩ := compute_spec hf hT h2 hX (hh'.ok hf h2 h3)
  exact ⟨hh', s', a1, a2, a3⟩

/-- C112, what holds for `MACEKokkos`: after any sequence of evaluations and covered assignments, an evaluation succeeds and gives the
energies and forces of `MACE`.  Missing: assignments to `R0` and `R1` of more rows than the views of their derivatives have
(`C112_fails`, `C112_violated`). -/
theorem C112_kokkos_partial (hf : FileOk f) (hk : FileOkK f ne) (hs : Poly.SortFn srt) :
    ∃ P s0 Q, load srt sph dsph f = some (P, s0) ∧ Kokkos.load srt sph dsph junk ne f = some (Q, Kokkos.State.init ℝ) ∧
      ∀ T X, SysOk f T → Inside f T X → ∀ s, Hist f P s0 s → ∀ t, HistA f Q t → ∀ V : Kokkos.Env ℝ,
        ∃ s' t', computeNodeEnergiesForces f.zbl P (T.graph X) s = some s' ∧ Kokkos.compute V Q f.zbl (T.graph X) t = some t' ∧
          HistA f Q t' ∧ ZeroPadded t'.energies s'.nodeEnergies ∧ ZeroPadded t'.forces s'.nodeForces := by
  obtain ⟨P, s0, h1, h2, h3⟩ := MACE.load_spec hf hs sph dsph
  obtain ⟨Q, k1, k2⟩ := Kokkos.load_spec hf hk hs sph dsph junk
  refine ⟨P, s0, Q, h1, k1, fun T X hT hX s hh t ht V => ?_⟩
  obtain ⟨s', a1, a2, a3, -⟩ := MACE.compute_spec hf hT h2 hX (Hist.ok hf h2 h3 hh)
  obtain ⟨t', b1, -, b2, b3⟩ := Kokkos.compute_spec V hf hT k2 hX (ht.ok hf k2)
  refine ⟨s', t', a1, b1, .call ht hT hX b1, ?_, ?_⟩
  · rw [a2]
    exact zeroPadded_of b2 (fun p => rfl)
  · rw [a3]
    rw [show tab2 T.E 3 (forceOf f sph dsph T X) = tab (3 * T.E) (fun p => forceOf f sph dsph T X (p / 3) (p % 3)) by
      unfold tab2; rw [mul_comm]]
    refine zeroPadded_of b3 (fun p => ?_)
    show (if p / 3 < T.E then forceOf f sph dsph T X (p / 3) (p % 3) else 0) = _
    by_cases hp : p < 3 * T.E
    · rw [if_pos hp, if_pos (by omega)]
    · rw [if_neg hp, if_neg (by omega)]

theorem compute_none (V : Kokkos.Env ℝ) {Q : Kokkos.Params ℝ} (zbl : Option ZBLModel.ZBL) (g : Graph ℝ) (s : Kokkos.State ℝ)
    (h : ∀ e w, Kokkos.evalRest V Q g e w s = none) : Kokkos.compute V Q zbl g s = none := by
  rw [Option.eq_none_iff_forall_ne_some]
  intro s' hs
  unfold Kokkos.compute at hs
  simp only [Option.bind_eq_bind, Option.bind_eq_some_iff] at hs
  obtain ⟨o, -, h2⟩ := hs
  rw [h] at h2
  cases h2

/-- An evaluation fails when `R0` has a row for every pair and the view of its derivatives has not. -/
theorem compute_fails0 (V : Kokkos.Env ℝ) {Q : Kokkos.Params ℝ} (zbl : Option ZBLModel.ZBL) (g : Graph ℝ) (s : Kokkos.State ℝ)
    (hS : 0 < (Q.lmax + 1) * Q.C) {n : ℕ} {ns : List ℕ} (hd : s.R0d.ext = n :: ns) (hn : n < g.r.length)
    (hr : g.r.length ≤ s.R0.extent 0) : Kokkos.compute V Q zbl g s = none := by
  have h0 : Kokkos.computeR0 V Q.C Q.lmax Q.atomicNumbers.length Q.R0h Q.R0c g s.R0 s.R0d = none := by
    unfold Kokkos.computeR0
    simp only [not_lt.mpr hr, if_false]
    cases Kokkos.iList V g.nn g.N g.r.length with
    | none => rfl
    | some il => exact (Kokkos.radialK_doomed hS (n := n) (ns := ns) (by simp [hd]) hn).launch2 _ _ _
  refine compute_none V zbl g s (fun e w => ?_)
  unfold Kokkos.evalRest
  rw [h0]
  rfl

/-- The same for `R1`. -/
theorem compute_fails1 (V : Kokkos.Env ℝ) {Q : Kokkos.Params ℝ} (zbl : Option ZBLModel.ZBL) (g : Graph ℝ) (s : Kokkos.State ℝ)
    (hS : 0 < Q.radial1.numFun) {n : ℕ} {ns : List ℕ} (hd : s.R1d.ext = n :: ns) (hn : n < g.r.length)
    (hr : g.r.length ≤ s.R1.extent 0) : Kokkos.compute V Q zbl g s = none := by
  have h0 : Kokkos.computeRadial V (Q.phil.length * Q.C) Q.radial1 g s.R1 s.R1d = none := by
    unfold Kokkos.computeRadial Kokkos.RadialSet.evaluate
    simp only [not_lt.mpr hr, if_false]
    cases Kokkos.iList V g.nn g.N g.r.length with
    | none => rfl
    | some il => exact (Kokkos.radialK_doomed hS (n := n) (ns := ns) (by simp [hd]) hn).launch2 _ _ _
  refine compute_none V zbl g s (fun e w => ?_)
  unfold Kokkos.evalRest
  cases Kokkos.computeR0 V Q.C Q.lmax Q.atomicNumbers.length Q.R0h Q.R0c g s.R0 s.R0d with
  | none => rfl
  | some r0 =>
    rw [Option.bind_eq_bind, Option.bind_some, h0]
    rfl

/-- C112 fails whenever the assigned `R0` or `R1` has a row for every pair of the next evaluation and the view of the derivatives has
fewer: the evaluation writes beyond that view, in every environment. -/
theorem C112_fails (hf : FileOk f) (hk : FileOkK f ne) (hs : Poly.SortFn srt) :
    ∃ Q, Kokkos.load srt sph dsph junk ne f = some (Q, Kokkos.State.init ℝ) ∧
      ∀ T X, SysOk f T → ∀ t, HistA f Q t → ∀ x t' (V : Kokkos.Env ℝ),
        (Kokkos.setAttr Q t .R0 x = some t' → t.R0d.extent 0 < T.E → T.E ≤ x.length / ((Q.lmax + 1) * Q.C) →
          Kokkos.compute V Q f.zbl (T.graph X) t' = none) ∧
        (Kokkos.setAttr Q t .R1 x = some t' → t.R1d.extent 0 < T.E → T.E ≤ x.length / (Q.phil.length * Q.C) →
          Kokkos.compute V Q f.zbl (T.graph X) t' = none) := by
  obtain ⟨Q, k1, k2⟩ := Kokkos.load_spec hf hk hs sph dsph junk
  refine ⟨Q, k1, fun T X hT t ht x t' V => ?_⟩
  have hr : (T.graph X).r.length = T.E := by rw [graph_gx]; simp [gx]
  have hok := ht.ok hf k2
  have row : ∀ {v : View ℝ} {ns : List ℕ}, Kokkos.Room v ns 0 → ∃ ms, v.ext = v.extent 0 :: ms := by
    rintro v ns ⟨-, n, ms, h, -⟩
    exact ⟨ms, by unfold View.extent; rw [h]; rfl⟩
  constructor
  · intro h hd hn
    have hw : 0 < (Q.lmax + 1) * Q.C := by
      rcases Nat.eq_zero_or_pos ((Q.lmax + 1) * Q.C) with h0 | h0
      · rw [h0, Nat.div_zero] at hn; omega
      · exact h0
    rw [setAttr_view (by simpa [Kokkos.shape] using hw)] at h
    cases h
    obtain ⟨ms, hms⟩ := row hok.1.R0.2.1
    refine compute_fails0 V f.zbl _ _ hw (n := t.R0d.extent 0) (ns := ms) hms (by rw [hr]; exact hd) ?_
    rw [hr]
    simpa [Kokkos.withView, View.extent, Kokkos.shape] using hn
  · intro h hd hn
    have hw : 0 < Q.phil.length * Q.C := by
      rcases Nat.eq_zero_or_pos (Q.phil.length * Q.C) with h0 | h0
      · rw [h0, Nat.div_zero] at hn; omega
      · exact h0
    rw [setAttr_view (by simpa [Kokkos.shape] using hw)] at h
    cases h
    obtain ⟨ms, hms⟩ := row hok.1.R1.2.1
    refine compute_fails1 V f.zbl _ _ ?_ (n := t.R1d.extent 0) (ns := ms) hms (by rw [hr]; exact hd) ?_
    · rw [k2.R1.2.2.1]
      rw [k2.wok.len, k2.wok.C] at hw
      exact hw
    · rw [hr]
      simpa [Kokkos.withView, View.extent, Kokkos.shape] using hn

/-- C111 fails: a row of two channels and one more number are assigned to `M1`, the number is dropped. -/
theorem C111_violated : ∃ f ne, FileOk f ∧ FileOkK f ne ∧ ∀ srt, Poly.SortFn srt → ∀ sph dsph junk, ∃ Q t0,
    Kokkos.load srt sph dsph junk ne f = some (Q, t0) ∧ ∃ t, Kokkos.setAttr Q t0 .M1 [1, 2, 3] = some t ∧ Kokkos.getAttr Q t .M1 = some [1, 2] := by
  refine ⟨exFile, 2, exFile_ok, exFile_okK, fun srt hs sph dsph junk => ?_⟩
  obtain ⟨Q, k1, k2⟩ := Kokkos.load_spec exFile_ok exFile_okK hs sph dsph junk
  have hC : Q.C = 2 := k2.wok.C
  have hp : (Kokkos.shape Q .M1).prod = 2 := by simp [Kokkos.shape, hC]
  obtain ⟨t, h1, h2, -⟩ := C111_kokkos_reads (s := Kokkos.State.init ℝ) (Q := Q) (a := .M1) (x := [1, 2, 3]) (by omega)
  refine ⟨Q, _, k1, t, h1, ?_⟩
  rw [h2, hp]
  rfl

/-- C112 fails: `R0` of a new object is assigned for two pairs, then a system with two pairs is evaluated. -/
theorem C112_violated : ∃ f ne T X x, FileOk f ∧ FileOkK f ne ∧ SysOk f T ∧ Inside f T X ∧ ∀ srt, Poly.SortFn srt → ∀ sph dsph junk, ∃ Q t0 t,
    Kokkos.load srt sph dsph junk ne f = some (Q, t0) ∧ Kokkos.setAttr Q t0 .R0 x = some t ∧ Kokkos.getAttr Q t .R0 = some x ∧
      ∀ V : Kokkos.Env ℝ, Kokkos.compute V Q f.zbl (T.graph X) t = none ∧ ∃ t', Kokkos.compute V Q f.zbl (T.graph X) t0 = some t' := by
  refine ⟨exFile, 2, exSys, exX, List.replicate 8 1, exFile_ok, exFile_okK, exSys_ok, exInside, fun srt hs sph dsph junk => ?_⟩
  obtain ⟨Q, k1, k3⟩ := C112_fails (sph := sph) (dsph := dsph) (junk := junk) exFile_ok exFile_okK hs
  obtain ⟨k2, -⟩ := loadedK_of exFile_ok exFile_okK hs k1
  have hC : Q.C = 2 := k2.wok.C
  have hl : Q.lmax = 1 := k2.wok.lmax
  have hp : (Kokkos.shape Q .R0).prod = 4 := by simp [Kokkos.shape, hC, hl]
  obtain ⟨t, h1, h2, -⟩ := C111_kokkos_partial (s := Kokkos.State.init ℝ) (Q := Q) (a := .R0) (x := List.replicate 8 1) (by omega)
    (by rw [hp]; exact ⟨2, rfl⟩)
  refine ⟨Q, _, t, k1, h1, h2, fun V => ⟨?_, ?_⟩⟩
  · refine (k3 exSys exX exSys_ok _ .init _ t V).1 h1 (by decide) ?_
    rw [hC, hl]
    decide
  · obtain ⟨t', b1, -⟩ := Kokkos.compute_spec V exFile_ok exSys_ok k2 exInside (Kokkos.init_ok exFile Q)
    exact ⟨t', b1⟩

/-- The hypotheses of `C112_kokkos_partial` allow assignments, such as `H1` of any length. -/
example {Q : Kokkos.Params ℝ} {t : Kokkos.State ℝ} (x : List ℝ) : Covered Q t .H1 x := ⟨nofun, nofun⟩

example {srt : List (List (List ℕ)) → List (List (List ℕ))} (hs : Poly.SortFn srt) (V : Kokkos.Env ℝ) : ∃ Q t t',
    Kokkos.load srt exSph exDsph (fun _ _ => 0) 2 exFile = some (Q, Kokkos.State.init ℝ) ∧ HistA exFile Q t ∧
      Kokkos.setAttr Q (Kokkos.State.init ℝ) .H1 [1, 2, 3, 4, 5, 6, 7, 8] = some t ∧ Kokkos.compute V Q exFile.zbl (exSys.graph exX) t = some t' := by
  obtain ⟨P, s0, Q, h1, h2, h3⟩ := C112_kokkos_partial (sph := exSph) (dsph := exDsph) (junk := fun _ _ => 0) exFile_ok exFile_okK hs
  obtain ⟨k2, -⟩ := loadedK_of exFile_ok exFile_okK hs h2
  have hC : Q.C = 2 := k2.wok.C
  have hL : Q.LM = 4 := k2.wok.LM
  obtain ⟨t, e1, -⟩ := C111_kokkos_partial (s := Kokkos.State.init ℝ) (Q := Q) (a := .H1) (x := [1, 2, 3, 4, 5, 6, 7, 8])
    (by simp [Kokkos.shape, hC, hL]) (by simp [Kokkos.shape, hC, hL])
  have ht : HistA exFile Q t := .assign (a := .H1) .init ⟨nofun, nofun⟩ e1
  obtain ⟨s', t', -, h5, -⟩ := h3 exSys exX exSys_ok exInside s0 .init t ht V
  exact ⟨Q, t, t', h2, ht, e1, h5⟩

end Verif.Props
