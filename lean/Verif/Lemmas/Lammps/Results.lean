import Verif.Lemmas.Lammps.Build
import Mathlib.Tactic.IntervalCases

/-! # Energies, forces and virial in the LAMMPS pair style -/

namespace Verif

theorem loop_add {σ : Type*} (a b : ℕ) (body : ℕ → σ → Option σ) (s : σ) :
    loop (a + b) body s = (loop a body s).bind (loop b (fun j => body (a + j))) := by
  induction b with
  | zero => simp only [add_zero]; cases loop a body s <;> rfl
  | succ b ih =>
    rw [← add_assoc, loop_succ, ih]
    cases loop a body s <;> rfl

/-- A loop over nodes with an inner loop over their edges is a loop over all edges. -/
theorem nodes_edges {σ : Type*} {N : ℕ} {nn : List ℕ} (hN : N ≤ nn.length) {g : ℕ → ℕ} {body : ℕ → ℕ → σ → Option σ}
    {B : ℕ → σ → Option σ} (h : ∀ i < N, ∀ n, nn[i]? = some n → ∀ j < n, ∀ s, body (g i) (off nn i + j) s = B (off nn i + j) s) (s : σ) :
    loop N (fun i (q : ℕ × σ) => (nn[i]?).bind (fun n => edgesFrom n (body (g i)) q)) (0, s)
      = (loop (off nn N) B s).map (fun s => (off nn N, s)) := by
  induction N with
  | zero => simp [off_zero]
  | succ N ih =>
    have hn : nn[N]? = some nn[N] := List.getElem?_eq_getElem (by omega)
    rw [loop_succ, ih (by omega) (fun i hi => h i (by omega)), off_succ hn, loop_add]
    cases loop (off nn N) B s with
    | none => rfl
    | some t =>
      simp only [Option.map_some, Option.bind_some, hn]
      rw [edgesFrom_eq, loop_congr (fun j hj s => h N (by omega) _ hn j hj s)]

namespace Lammps
open Verif.MACE Verif.Spec

theorem addEnergy_eq {n : ℕ} {E : List ℝ} (hn : n ≤ E.length) (eng : ℝ) :
    addEnergy n E eng = some (eng + ∑ i ∈ Finset.range n, nth E i) := by
  unfold addEnergy
  have h := loop_eq (n := n) (fun k => eng + ∑ i ∈ Finset.range k, nth E i) (body := fun ii e => do
    let v ← E[ii]?
    pure (e + v)) (fun i hi => by
      rw [get_nth (by omega), Finset.sum_range_succ]
      simp only [Option.bind_eq_bind, Option.bind_some, Option.pure_def, add_assoc])
  simpa using h

theorem putEatom_eq {n : ℕ} {E ea : List ℝ} (hn : n ≤ E.length) (he : n ≤ ea.length) :
    putEatom n E ea = some (tab ea.length (fun i => if i < n then nth E i else nth ea i)) := by
  unfold putEatom
  have h := loop_eq (n := n) (fun k => tab ea.length (fun i => if i < k then nth E i else nth ea i)) (body := fun ii ea => do
    let v ← E[ii]?
    wr ea ii v) (fun i hi => by
      rw [get_nth (by omega)]
      simp only [Option.bind_eq_bind, Option.bind_some]
      rw [wr_tab _ (by omega)]
      congr 1
      apply tab_congr
      intro j hj
      by_cases e : j = i
      · subst e; simp
      · rw [Function.update_of_ne e]
        have : (j < i + 1) ↔ j < i := by omega
        simp only [this])
  rw [← h]
  congr 1
  rw [eq_tab_iff]
  exact ⟨rfl, fun i hi => by rw [get_nth hi]; simp⟩

variable {M : ℕ} {F : ℕ → ℕ → ℝ} {f0 : ℕ → ℕ → ℝ} {E : ℕ}

theorem ad_tab2' {n B : ℕ} {f : ℕ → ℕ → ℝ} {q j : ℕ} (v : ℝ) (hq : q < n) (hj : j < B) :
    ad (tab2 n B f) (B * q + j) v = some (tab2 n B (fun q' j' => f q' j' + if q' = q ∧ j' = j then v else 0)) := by
  rw [mul_comm B, ad_tab2 v hq hj]
  congr 1
  apply tab2_congr
  intro q' _ j' _
  unfold upd2
  by_cases h : q' = q ∧ j' = j
  · obtain ⟨rfl, rfl⟩ := h; simp
  · simp [h]

theorem scatterEdge_eq {neighJ : List ℕ} {i j e : ℕ} (hi : i < M) (hj : j < M) (hJ : neighJ[e]? = some j) (he : e < E) :
    scatterEdge neighJ (tab2 E 3 F) i e (tab2 M 3 f0)
      = some (tab2 M 3 (fun a c => f0 a c + F e c * ((if a = j then 1 else 0) - if a = i then 1 else 0))) := by
  have h0 := getElem?_tab2 (f := F) he (show 0 < 3 by norm_num)
  have h1 := getElem?_tab2 (f := F) he (show 1 < 3 by norm_num)
  have h2 := getElem?_tab2 (f := F) he (show 2 < 3 by norm_num)
  rw [mul_comm e 3] at h0 h1 h2
  rw [add_zero] at h0
  unfold scatterEdge
  simp only [hJ, h0, h1, h2, Option.bind_eq_bind, Option.bind_some]
  have hz : ∀ (f : ℕ → ℕ → ℝ) (q : ℕ) (v : ℝ), q < M → ad (tab2 M 3 f) (3 * q) v
      = some (tab2 M 3 (fun q' j' => f q' j' + if q' = q ∧ j' = 0 then v else 0)) := by
    intro f q v hq
    have := ad_tab2' (f := f) v hq (show 0 < 3 by norm_num)
    rwa [add_zero] at this
  rw [hz _ _ _ hi, Option.bind_some, ad_tab2' _ hi (by norm_num), Option.bind_some, ad_tab2' _ hi (by norm_num), Option.bind_some,
    hz _ _ _ hj, Option.bind_some, ad_tab2' _ hj (by norm_num), Option.bind_some, ad_tab2' _ hj (by norm_num)]
  congr 1
  apply tab2_congr
  intro a _ c hc
  have key : ∀ (p q : Prop) [Decidable p] [Decidable q], ∀ c < 3,
      f0 a c + (if p ∧ c = 0 then -F e 0 else 0) + (if p ∧ c = 1 then -F e 1 else 0) + (if p ∧ c = 2 then -F e 2 else 0)
        + (if q ∧ c = 0 then F e 0 else 0) + (if q ∧ c = 1 then F e 1 else 0) + (if q ∧ c = 2 then F e 2 else 0)
      = f0 a c + F e c * ((if q then 1 else 0) - if p then 1 else 0) := by
    intro p q _ _ c hc
    by_cases hp : p <;> by_cases hq : q <;> interval_cases c <;> simp [hp, hq] <;> ring
  exact key _ _ c hc

/-- What the force loop adds to atom `a`: every edge pulls at its two atoms. -/
theorem scatter_eq {n : ℕ} {w : Work} {src dst : ℕ → ℕ} (hnn : n ≤ w.nn.length) (hE : off w.nn n = E)
    (hsrc : ∀ ii < n, ∀ m, w.nn[ii]? = some m → ∃ i, w.nodeI[ii]? = some i ∧ ∀ k < m, src (off w.nn ii + k) = i)
    (hdst : ∀ e < E, w.neighJ[e]? = some (dst e)) (hs : ∀ e < E, src e < M) (hd : ∀ e < E, dst e < M) :
    scatter n w (tab2 E 3 F) (tab2 M 3 f0) = some (tab2 M 3 (fun a c => f0 a c
      + ∑ e ∈ Finset.range E, F e c * ((if a = dst e then 1 else 0) - if a = src e then 1 else 0))) := by
  unfold scatter
  have hcong : ∀ ii < n, ∀ q : ℕ × List ℝ, (do
      let i ← w.nodeI[ii]?
      let m ← w.nn[ii]?
      edgesFrom m (scatterEdge w.neighJ (tab2 E 3 F) i) q)
      = (w.nn[ii]?).bind (fun m => edgesFrom m (scatterEdge w.neighJ (tab2 E 3 F) (nthN w.nodeI ii)) q) := by
    intro ii hii q
    have hm : w.nn[ii]? = some (nthN w.nn ii) := get_nthN (by omega)
    obtain ⟨i, h1, _⟩ := hsrc ii hii _ hm
    have : nthN w.nodeI ii = i := by simp [nthN, h1]
    rw [h1, this]
    rfl
  rw [loop_congr hcong, nodes_edges hnn (g := fun ii => nthN w.nodeI ii)
    (body := fun i => scatterEdge w.neighJ (tab2 E 3 F) i) (B := fun e => scatterEdge w.neighJ (tab2 E 3 F) (src e) e)
    (fun ii hii m hm k hk s => by
      obtain ⟨i, h1, h2⟩ := hsrc ii hii m hm
      have : nthN w.nodeI ii = i := by simp [nthN, h1]
      show scatterEdge _ _ (nthN w.nodeI ii) _ _ = _
      rw [h2 k hk, this]), hE]
  have h := loop_eq (n := E) (fun k => tab2 M 3 (fun a c => f0 a c
      + ∑ e ∈ Finset.range k, F e c * ((if a = dst e then 1 else 0) - if a = src e then 1 else 0)))
    (body := fun e => scatterEdge w.neighJ (tab2 E 3 F) (src e) e) (fun e he => by
      rw [scatterEdge_eq (hs e he) (hd e he) (hdst e he) he]
      congr 1
      apply tab2_congr
      intro a _ c _
      rw [Finset.sum_range_succ]
      ring)
  simp only [Finset.range_zero, Finset.sum_empty, add_zero] at h
  rw [h]
  rfl

/-- Voigt order `xx, yy, zz, xy, xz, yz`. -/
def voigt (k : ℕ) : ℕ × ℕ := [(0, 0), (1, 1), (2, 2), (0, 1), (0, 2), (1, 2)].getD k (0, 0)

theorem virialEdge_eq {X : ℕ → ℕ → ℝ} {v0 : ℕ → ℝ} {e : ℕ} (he : e < E) {m : ℕ} (hm : 6 ≤ m) :
    virialEdge (tab2 E 3 X) (tab2 E 3 F) e (tab m v0) = some (tab m (fun k => v0 k + if k < 6 then
      1 / 2 * (X e (voigt k).1 * F e (voigt k).2 + X e (voigt k).2 * F e (voigt k).1) else 0)) := by
  have h0 := getElem?_tab2 (f := F) he (show 0 < 3 by norm_num)
  have h1 := getElem?_tab2 (f := F) he (show 1 < 3 by norm_num)
  have h2 := getElem?_tab2 (f := F) he (show 2 < 3 by norm_num)
  have k0 := getElem?_tab2 (f := X) he (show 0 < 3 by norm_num)
  have k1 := getElem?_tab2 (f := X) he (show 1 < 3 by norm_num)
  have k2 := getElem?_tab2 (f := X) he (show 2 < 3 by norm_num)
  rw [mul_comm e 3] at h0 h1 h2 k0 k1 k2
  rw [add_zero] at h0 k0
  unfold virialEdge
  simp only [h0, h1, h2, k0, k1, k2, Option.bind_eq_bind, Option.bind_some]
  rw [ad_tab _ (by omega), Option.bind_some, ad_tab _ (by omega), Option.bind_some, ad_tab _ (by omega), Option.bind_some,
    ad_tab _ (by omega), Option.bind_some, ad_tab _ (by omega), Option.bind_some, ad_tab _ (by omega)]
  congr 1
  apply tab_congr
  intro k _
  by_cases hk : k < 6
  · interval_cases k <;> simp [Function.update, voigt] <;> ring
  · rw [if_neg hk, add_zero]
    simp only [Function.update]
    simp [show k ≠ 0 by omega, show k ≠ 1 by omega, show k ≠ 2 by omega, show k ≠ 3 by omega, show k ≠ 4 by omega,
      show k ≠ 5 by omega]

theorem virialLoop_eq {n : ℕ} {w : Work} {X : ℕ → ℕ → ℝ} {v0 : ℕ → ℝ} (hnn : n ≤ w.nn.length) (hE : off w.nn n = E)
    (hX : w.xyz = tab2 E 3 X) {m : ℕ} (hm : 6 ≤ m) :
    virialLoop n w (tab2 E 3 F) (tab m v0) = some (tab m (fun k => v0 k + if k < 6 then ∑ e ∈ Finset.range E,
      1 / 2 * (X e (voigt k).1 * F e (voigt k).2 + X e (voigt k).2 * F e (voigt k).1) else 0)) := by
  unfold virialLoop
  have := nodes_edges hnn (g := fun ii => ii) (body := fun _ => virialEdge w.xyz (tab2 E 3 F))
    (B := virialEdge w.xyz (tab2 E 3 F)) (fun _ _ _ _ _ _ _ => rfl) (tab m v0)
  simp only [Option.bind_eq_bind]
  rw [this, hE, hX]
  have h := loop_eq (n := E) (fun k' => tab m (fun k => v0 k + if k < 6 then ∑ e ∈ Finset.range k',
      1 / 2 * (X e (voigt k).1 * F e (voigt k).2 + X e (voigt k).2 * F e (voigt k).1) else 0))
    (body := virialEdge (tab2 E 3 X) (tab2 E 3 F)) (fun e he => by
      rw [virialEdge_eq he hm]
      congr 1
      apply tab_congr
      intro k _
      by_cases hk : k < 6
      · simp only [hk, if_true, Finset.sum_range_succ]; ring
      · simp [hk])
  simp only [Finset.range_zero, Finset.sum_empty, ite_self, add_zero] at h
  rw [h]
  rfl

end Lammps

end Verif
