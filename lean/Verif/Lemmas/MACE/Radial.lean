import Verif.Lemmas.MACE.Adjoint

/-! # Stage lemmas: `compute_R0`, `compute_R1`, `compute_Y` -/

namespace Verif.MACE
open Verif.Spec Verif.Blas Verif.Spline

section radial
variable {K : Type} [Field K] [LinearOrder K] [IsStrictOrderedRing K] [FloorRing K]
  {g : Graph K} {nT NH : ℕ} {c : Conf K} {n : ℕ → ℕ} {X : ℕ → ℕ → K} {R : ℕ → K}

/-- The radial splines (each with `S` components) give `v e`, with derivative `dv e`, on every edge. -/
def RadOk (nE : ℕ) (spl : List (SplineSet K)) (S : ℕ) (g : Graph K) (c : Conf K) (R : ℕ → K) (v dv : ℕ → ℕ → K) : Prop :=
  ∀ i < g.N, ∀ e ∈ edges g.nn i, ∃ sp, spl[pairIndex nE (c.typ i) (c.nty e)]? = some sp ∧
    ∀ (L : Bool → ℕ) (base : ℕ), (∀ b, base + S ≤ L b) → Acts L (sp.evaluateDerivs (R e) base)
      (fun b p x => if base ≤ p ∧ p < base + S then (if b = false then v e (p - base) else dv e (p - base)) else x)

theorem GOk.nn_len (hg : GOk g nT NH c n X R) : g.N ≤ g.nn.length := by
  by_contra h
  have := hg.nn g.nn.length (by omega)
  rw [List.getElem?_eq_none (by omega)] at this
  simp at this

theorem radial_spec {nE S : ℕ} {spl : List (SplineSet K)} {v dv : ℕ → ℕ → K} (hg : GOk g nT NH c n X R)
    (h0 : ∃ s0, spl[0]? = some s0 ∧ s0.num_splines = S) (hr : RadOk nE spl S g c R v dv) (b1 b2 : List K) :
    ∃ o1 o2, radial nE spl g b1 b2 = some (o1, o2) ∧ (∀ e < g.E, ∀ q < S, o1[e * S + q]? = some (v e q)) ∧
      (∀ e < g.E, ∀ q < S, o2[e * S + q]? = some (dv e q)) := by
  obtain ⟨s0, h1, h2⟩ := h0
  unfold radial
  simp only [Option.bind_eq_bind, h1, Option.bind_some, h2, length_resize]
  have hnode := nodeLoop_eq (N := g.N) (nn := g.nn) (σ := Bufs Bool K)
    (body := fun i (q : ℕ × Bufs Bool K) => (g.types[i]?).bind fun ti => (g.nn[i]?).bind fun n =>
      edgesFrom n (fun ij st => (g.ntypes[ij]?).bind fun tj => (spl[pairIndex nE ti tj]?).bind fun s =>
        (g.r[ij]?).bind fun rij => s.evaluateDerivs rij (ij * S) st) q)
    (B := fun i => loop (n i) (fun j st => (g.ntypes[off g.nn i + j]?).bind fun tj =>
        (spl[pairIndex nE (c.typ i) tj]?).bind fun s =>
        (g.r[off g.nn i + j]?).bind fun rij => s.evaluateDerivs rij ((off g.nn i + j) * S) st))
    (fun i hi s => by
      beta_reduce
      rw [hg.types i hi, Option.bind_some, hg.nn i hi, Option.bind_some, edgesFrom_eq, off_succ (hg.nn i hi)])
    (fun b => if b then resize b2 (g.Ex * S) else resize b1 (g.Ex * S))
  have hw : Writes (fun st : Bufs Bool K => ∀ b, (st b).length = g.Ex * S) (fun st (a : Bool × ℕ) => (st a.1)[a.2]?)
      (loop g.N (fun i => loop (n i) (fun j st => (g.ntypes[off g.nn i + j]?).bind fun tj =>
        (spl[pairIndex nE (c.typ i) tj]?).bind fun s =>
        (g.r[off g.nn i + j]?).bind fun rij => s.evaluateDerivs rij ((off g.nn i + j) * S) st)))
      (fun a => ∃ i < g.N, ∃ j < n i, (off g.nn i + j) * S ≤ a.2 ∧ a.2 < (off g.nn i + j) * S + S)
      (fun a => if a.1 = false then v (a.2 / S) (a.2 % S) else dv (a.2 / S) (a.2 % S)) := by
    refine Writes.loop (fun i hi => Writes.loop (fun j hj => ?_))
    have he := (mem_edges (hg.nn i hi)).mpr ⟨j, hj, rfl⟩
    have hlt := hg.lt hi he
    obtain ⟨sp, k1, k2⟩ := hr i hi _ he
    refine Writes.bindRead (hg.ntypes _ hlt) (Writes.bindRead k1 (Writes.bindRead (hg.r_get hlt) ?_))
    have hL : (off g.nn i + j) * S + S ≤ g.Ex * S := by
      rw [← Nat.succ_mul]; exact Nat.mul_le_mul_right _ (hg.ltx hlt)
    have hA := k2 (fun _ => g.Ex * S) ((off g.nn i + j) * S) (fun _ => hL)
    intro st hst
    refine ⟨_, hA st hst, by simp [hst], fun a => ⟨fun ha => ?_, fun ha => ?_⟩⟩
    · have hlen : a.2 < (st a.1).length := by rw [hst]; omega
      beta_reduce
      rw [List.getElem?_mapIdx, List.getElem?_eq_getElem hlen, Option.map_some, if_pos ha]
      obtain ⟨q, hq, hq'⟩ : ∃ q < S, a.2 = (off g.nn i + j) * S + q := ⟨a.2 - (off g.nn i + j) * S, by omega, by omega⟩
      rw [hq', flat_div hq, flat_mod hq, Nat.add_sub_cancel_left]
    · beta_reduce
      rw [List.getElem?_mapIdx]
      exact option_map_id_of (fun x => if_neg ha) _
  obtain ⟨st, w1, w2, w3⟩ := hw (fun b => if b then resize b2 (g.Ex * S) else resize b1 (g.Ex * S))
    (fun b => by cases b <;> simp)
  rw [w1] at hnode
  have hcov : ∀ e < g.E, ∀ q < S, ∃ i < g.N, ∃ j < n i, (off g.nn i + j) * S ≤ e * S + q ∧
      e * S + q < (off g.nn i + j) * S + S := by
    intro e he q hq
    obtain ⟨i, m, j, hi, hm, hj, rfl⟩ := exists_edge hg.nn_len he
    rw [hg.nn i hi] at hm
    obtain rfl := Option.some.inj hm
    exact ⟨i, hi, j, hj, by omega, by omega⟩
  refine ⟨st false, st true, bind_of_some hnode _, fun e he q hq => ?_, fun e he q hq => ?_⟩
  · refine ((w3 (false, e * S + q)).1 (hcov e he q hq)).trans ?_
    dsimp only
    rw [if_pos rfl, flat_div hq, flat_mod hq]
  · refine ((w3 (true, e * S + q)).1 (hcov e he q hq)).trans ?_
    dsimp only
    rw [if_neg (by simp), flat_div hq, flat_mod hq]

end radial

section harmonics
variable {K : Type} [Field K] {g : Graph K} {nT nP NH : ℕ} {c : Conf K} {n : ℕ → ℕ} {X : ℕ → ℕ → K} {R : ℕ → K}
  {P : Params K} {W : Net K}

/-- The permuted coordinates `(z, x, y)`. -/
def shuf (x : ℕ → K) : ℕ → K := fun a => if a = 0 then x 2 else if a = 1 then x 0 else x 1

theorem shuffle_spec {num : ℕ} (X : ℕ → ℕ → K) {b : List K} (hb : b.length = 3 * num) :
    shuffle num (tab2 num 3 X) b = some (tab2 num 3 (fun e => shuf (X e))) := by
  unfold shuffle
  refine Wr.tab_of_all (S := fun p => ∃ i < num, (p = 3 * i ∨ p = 3 * i + 1) ∨ p = 3 * i + 2)
    (Writes.loop (fun i hi => ?_)) ?_ (by rw [hb, mul_comm])
  · have r : ∀ a < 3, (tab2 num 3 X)[3 * i + a]? = some (X i a) := fun a ha => by
      rw [mul_comm 3, getElem?_tab2 hi ha]
    have v : ∀ a < 3, (fun p => shuf (X (p / 3)) (p % 3)) (3 * i + a) = shuf (X i) a := fun a ha => by
      beta_reduce; rw [mul_comm 3, flat_div ha, flat_mod ha]
    have w0 := Wr.wr (K := K) (L := num * 3) (i := 3 * i) (val := fun p => shuf (X (p / 3)) (p % 3)) (v := X i 2) (by omega)
      (v 0 (by omega))
    have w1 := Wr.wr (K := K) (L := num * 3) (i := 3 * i + 1) (val := fun p => shuf (X (p / 3)) (p % 3)) (v := X i 0) (by omega)
      (v 1 (by omega))
    have w2 := Wr.wr (K := K) (L := num * 3) (i := 3 * i + 2) (val := fun p => shuf (X (p / 3)) (p % 3)) (v := X i 1) (by omega)
      (v 2 (by omega))
    refine ((w0.bind w1).bind w2).of_eq (fun b _ => ?_)
    rw [r 2 (by omega), show (tab2 num 3 X)[3 * i]? = some (X i 0) from r 0 (by omega), r 1 (by omega)]
    simp only [Option.bind_eq_bind, Option.bind_some, Option.bind_assoc]
  · intro p hp
    exact ⟨p / 3, by omega, by omega⟩

theorem sphValues_spec {M num : ℕ} (sph : K → K → K → ℕ → K) (Z : ℕ → ℕ → K) {b : List K} (hb : b.length = num * M) :
    sphValues M sph num (tab2 num 3 Z) b = some (tab2 num M (fun e lm => sph (Z e 0) (Z e 1) (Z e 2) lm)) := by
  unfold sphValues
  refine Wr.tab_of_all (S := fun p => ∃ i < num, ∃ lm < M, p = i * M + lm)
    (Writes.loop (fun i hi => Writes.loop (fun lm hlm => ?_))) ?_ hb
  · have r : ∀ a < 3, (tab2 num 3 Z)[3 * i + a]? = some (Z i a) := fun a ha => by
      rw [mul_comm 3, getElem?_tab2 hi ha]
    refine Writes.bindRead (r 0 (by omega)) (Writes.bindRead (r 1 (by omega)) (Writes.bindRead (r 2 (by omega)) ?_))
    exact Wr.wr (flat_lt hi hlm) (by rw [flat_div hlm, flat_mod hlm])
  · intro p hp
    obtain ⟨i, lm, hi, hlm, rfl⟩ := flat_decomp hp
    exact ⟨i, hi, lm, hlm, rfl⟩

theorem sphGrads_spec {M num : ℕ} (dsph : K → K → K → ℕ → ℕ → K) (Z : ℕ → ℕ → K) {b : List K} (hb : b.length = 3 * num * M) :
    sphGrads M dsph num (tab2 num 3 Z) b = some (T3 num 3 M (fun e a lm => dsph (Z e 0) (Z e 1) (Z e 2) a lm)) := by
  unfold sphGrads
  refine Wr.tab_of_all (S := fun p => ∃ i < num, ∃ a < 3, ∃ lm < M, p = 3 * i * M + a * M + lm)
    (Writes.loop (fun i hi => Writes.loop (fun a ha => Writes.loop (fun lm hlm => ?_)))) ?_ (by rw [hb, mul_comm 3])
  · have r : ∀ a < 3, (tab2 num 3 Z)[3 * i + a]? = some (Z i a) := fun a ha => by
      rw [mul_comm 3, getElem?_tab2 hi ha]
    refine Writes.bindRead (r 0 (by omega)) (Writes.bindRead (r 1 (by omega)) (Writes.bindRead (r 2 (by omega)) ?_))
    have e : 3 * i * M + a * M + lm = (i * 3 + a) * M + lm := by ring
    rw [e]
    exact Wr.wr (flat3_lt hi ha hlm) (by rw [dec3_flat _ ha hlm])
  · intro p hp
    obtain ⟨i, a, lm, hi, ha, hlm, rfl⟩ := flat3_decomp hp
    exact ⟨i, hi, a, ha, lm, hlm, by ring⟩

theorem scaleAll_spec {L : ℕ} (nrm : K) (f : ℕ → K) : scaleAll nrm (tab L f) = some (tab L (fun p => f p * nrm)) := by
  unfold scaleAll
  have h : Acts1 L (loop (tab L f).length (fun i b => md b i (fun y => y * nrm)))
      (fun q x => iter L (fun i x => if q = i then x * nrm else x) x) := by
    rw [length_tab]
    exact Acts1.loop (fun p hp => Acts1.md hp _)
  rw [h _ (by simp), tab_mapIdx]
  congr 1
  exact tab_congr (fun p hp => iter_eq hp (fun _ x => x * nrm) _)

theorem unshuffle_spec {M num : ℕ} (D : ℕ → ℕ → ℕ → K) {b : List K} (hb : b.length = num * 3 * M) :
    unshuffle M num (T3 num 3 M D) b = some (T3 num 3 M (fun e a lm => D e (if a = 0 then 1 else if a = 1 then 2 else 0) lm)) := by
  unfold unshuffle
  refine Wr.tab_of_all (S := fun p => ∃ i < num, ∃ lm < M, (p = (i * 3 + 0) * M + lm ∨ p = (i * 3 + 1) * M + lm) ∨ p = (i * 3 + 2) * M + lm)
    (Writes.loop (fun i hi => Writes.loop (fun lm hlm => ?_))) ?_ hb
  · have e : ∀ a, 3 * i * M + a * M + lm = (i * 3 + a) * M + lm := fun a => by ring
    have r : ∀ a < 3, (T3 num 3 M D)[(i * 3 + a) * M + lm]? = some (D i a lm) := fun a ha => T3_get D hi ha hlm
    have w : ∀ a < 3, ∀ v, v = D i (if a = 0 then 1 else if a = 1 then 2 else 0) lm →
        Wr (num * 3 * M) (fun b => wr b ((i * 3 + a) * M + lm) v) (fun p => p = (i * 3 + a) * M + lm)
        (dec3 3 M (fun e a lm => D e (if a = 0 then 1 else if a = 1 then 2 else 0) lm)) := fun a ha v hv =>
      Wr.wr (flat3_lt hi ha hlm) (by rw [dec3_flat _ ha hlm, hv])
    simp only [e]
    refine (((w 0 (by omega) _ rfl).bind (w 1 (by omega) _ rfl)).bind (w 2 (by omega) _ rfl)).of_eq (fun b _ => ?_)
    rw [r 0 (by omega), r 1 (by omega), r 2 (by omega)]
    simp only [Option.bind_eq_bind, Option.bind_some, Option.bind_assoc]
    rfl
  · intro p hp
    obtain ⟨i, a, lm, hi, ha, hlm, rfl⟩ := flat3_decomp hp
    refine ⟨i, hi, lm, hlm, ?_⟩
    rcases (show a = 0 ∨ a = 1 ∨ a = 2 by omega) with rfl | rfl | rfl <;> simp

theorem dec3_mul {n2 n3 : ℕ} (f : ℕ → ℕ → ℕ → K) (c : K) (p : ℕ) : dec3 n2 n3 f p * c = dec3 n2 n3 (fun i j k => f i j k * c) p := rfl

/-- Harmonics and gradients of the bond vector `x`, as the code arranges them. -/
def harm (P : Params K) (x : ℕ → K) (lm : ℕ) : K := P.sph (x 2) (x 0) (x 1) lm * P.nrm

def harmD (P : Params K) (x : ℕ → K) (a lm : ℕ) : K :=
  P.dsph (x 2) (x 0) (x 1) (if a = 0 then 1 else if a = 1 then 2 else 0) lm * P.nrm

/-- `compute_Y`; without edges the old buffers are kept. -/
theorem computeY_spec (hw : WOk P W nT nP) (hg : GOk g nT NH c n X R) (s : State K) :
    ∃ Y Yg xs, computeY P g s = some { s with Y := Y, Yg := Yg, xyzs := xs } ∧
      (0 < g.Ex → Y = tab2 g.Ex W.M (fun e => harm P (X e)) ∧ Yg = T3 g.Ex 3 W.M (fun e => harmD P (X e))) := by
  unfold computeY
  by_cases h : g.xyz.length = 0
  · rw [if_pos h]
    rw [hg.xyz_len] at h
    exact ⟨s.Y, s.Yg, s.xyzs, rfl, fun h' => by omega⟩
  · rw [if_neg h]
    have hn : g.xyz.length / 3 = g.Ex := by rw [hg.xyz_len]; omega
    dsimp only
    rw [hn, hw.M, hg.xyz]
    refine ⟨_, _, tab2 g.Ex 3 (fun e => shuf (X e)), ?_, fun _ => ⟨rfl, rfl⟩⟩
    refine (bind_of_some (shuffle_spec X (by simp)) _).trans ?_
    refine (bind_of_some (sphValues_spec P.sph _ (by simp)) _).trans ?_
    refine (bind_of_some (sphGrads_spec P.dsph _ (by simp)) _).trans ?_
    refine (bind_of_some (scaleAll_spec P.nrm _) _).trans ?_
    refine (bind_of_some (scaleAll_spec P.nrm _) _).trans ?_
    refine (bind_of_some (unshuffle_spec (fun e a lm => P.dsph (X e 2) (X e 0) (X e 1) a lm * P.nrm) (by simp)) _).trans ?_
    rfl

end harmonics

end Verif.MACE
