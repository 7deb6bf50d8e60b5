import Verif.Lemmas.Num.SameMlp

/-! # The stages with different old contents of the buffers: first layer -/

namespace Verif.Num
open Verif.MACE

variable {K : Type} [A : Arith K]

/-- The buffers later stages read. -/
inductive Fld | E | F | R0 | R0d | R1 | R1d | Y | Yg | A0 | A0a | M0 | M0g | M0a | H1 | H1a | Phi1r | Phi1 | dPhi1 | A1 | A1a | M1 | M1g | M1a | H2 | H2a

/-- Contents of a buffer as far as it is used: `M1g` has more entries than are written, and without edges the harmonics are not computed. -/
def Fld.get (P : Params K) (g : Graph K) : Fld → State K → List K
  | .E, s => s.nodeEnergies | .F, s => s.nodeForces | .R0, s => s.R0 | .R0d, s => s.R0d | .R1, s => s.R1 | .R1d, s => s.R1d
  | .Y, s => if g.xyz.length = 0 then [] else s.Y | .Yg, s => if g.xyz.length = 0 then [] else s.Yg
  | .A0, s => s.A0 | .A0a, s => s.A0a | .M0, s => s.M0 | .M0g, s => s.M0g | .M0a, s => s.M0a | .H1, s => s.H1 | .H1a, s => s.H1a
  | .Phi1r, s => s.Phi1r | .Phi1, s => s.Phi1 | .dPhi1, s => s.dPhi1 | .A1, s => s.A1 | .A1a, s => s.A1a | .M1, s => s.M1
  | .M1g, s => s.M1g.take (g.N * P.M * P.C) | .M1a, s => s.M1a | .H2, s => s.H2 | .H2a, s => s.H2a

/-- Same polynomials, with the same sizes of the buffers inside. -/
structure PsLk (Q ps : List (Poly.Poly K)) : Prop where
  len : ps.length = Q.length
  lk : ∀ (j : ℕ) p q, ps[j]? = some p → Q[j]? = some q → PolyLk p q

/-- Reference objects. -/
structure Ref (K : Type) where
  P0 : List (Poly.Poly K)
  P1 : List (Poly.Poly K)
  w1 : List K
  w2 : List K
  sc : K

/-- The objects inside the state agree with the reference except for the contents of their buffers. -/
structure Lk (C : ℕ) (D : Ref K) (s : State K) : Prop where
  p0 : PsLk D.P0 s.P0
  p1 : PsLk D.P1 s.P1
  ro : MlpLk C D.w1 D.w2 D.sc s.ro2

/-- Reference objects whose polynomials are well formed. -/
structure RefOk (nT : ℕ) (P : Params K) (D : Ref K) : Prop where
  val0 : ∀ j < nT * P.LM * P.C, ∀ q, D.P0[j]? = some q → PolyVal q
  val1 : ∀ j < nT * P.C, ∀ q, D.P1[j]? = some q → PolyVal q

/-- Sizes of the buffers that fix the size of others. -/
def Fld.Sz (P : Params K) (g : Graph K) : Fld → State K → Prop
  | .M0, s => s.M0.length = g.N * P.LM * P.C | .Phi1, s => s.Phi1.length = g.N * P.numLme * P.C | .A1, s => s.A1.length = g.N * P.M * P.C
  | .M1, s => s.M1.length = g.N * P.C | .H2, s => s.H2.length = g.N * P.C | _, _ => True

/-- Two states, equal in the buffers `L`. -/
structure Same (P : Params K) (g : Graph K) (D : Ref K) (L : List Fld) (s t : State K) : Prop where
  all : ∀ f ∈ L, f.get P g s = f.get P g t ∧ f.Sz P g s
  lk : Lk P.C D s
  lk' : Lk P.C D t

section
variable {nT E : ℕ} {P : Params K} {g : Graph K} {D : Ref K} {L : List Fld} {s t : State K}

theorem Fits.deg (h : Fits nT E P g) {i n : ℕ} (hi : i < g.N) (hn : g.nn[i]? = some n) (h0 : g.xyz.length = 0) : n = 0 := by
  have h1 := off_mono g.nn (show i + 1 ≤ g.N from hi)
  rw [off_succ hn, h.cnt] at h1
  have := h.xyz
  omega

omit A in
theorem edges_congr {σ : Type} {n : ℕ} {f f' : ℕ → σ → Option σ} (q : ℕ × σ) (h : n = 0 ∨ f = f') : edgesFrom n f q = edgesFrom n f' q := by
  rcases h with rfl | rfl <;> rfl

theorem Same.eq (h : Same P g D L s t) (f : Fld) (hf : f ∈ L) : f.get P g s = f.get P g t := (h.all f hf).1

theorem Same.y (h : Same P g D L s t) (hY : Fld.Y ∈ L) (h0 : g.xyz.length ≠ 0) : s.Y = t.Y := by
  have := h.eq _ hY
  simpa only [Fld.get, if_neg h0] using this

theorem Same.yg (h : Same P g D L s t) (hY : Fld.Yg ∈ L) (h0 : g.xyz.length ≠ 0) : s.Yg = t.Yg := by
  have := h.eq _ hY
  simpa only [Fld.get, if_neg h0] using this

/-- Loop over `l` writing blocks of `2l+1` rows. -/
theorem blocks_two {Z n b C : ℕ} {f f' : ℕ → List K → Option (List K)} {x y : List K}
    (hf : ∀ l < n, ∀ x y, Agr Z (· < (b + l * l) * C) x y → Two (Agr Z (· < (b + l * l) * C + (2 * l + 1) * C)) (f l x) (f' l y))
    (h : Agr Z (· < b * C) x y) : Two (Agr Z (· < (b + n * n) * C)) (loop n f x) (loop n f' y) := by
  refine Two.loop (fun l => Agr Z (· < (b + l * l) * C)) (by simpa using h) fun l hl x y h => ?_
  refine Two.mono (hf l hl x y h) fun _ _ h => h.mono fun p _ hp => ?_
  have : (b + (l + 1) * (l + 1)) * C = (b + l * l) * C + (2 * l + 1) * C := by ring
  omega

/-- New contents of some buffers. -/
macro "sameUpd " h:term "," e:term,* : tactic =>
  `(tactic| (refine ⟨fun f hf => ?_, ?_, ?_⟩
             · cases f <;> first $[| (refine ⟨$e, ?_⟩; first | exact trivial | assumption)]* | exact Same.all $h _ (by simpa using hf) | exact ⟨rfl, (Same.all $h _ (by simpa using hf)).2⟩
             · exact ⟨(Same.lk $h).p0, (Same.lk $h).p1, (Same.lk $h).ro⟩
             · exact ⟨(Same.lk' $h).p0, (Same.lk' $h).p1, (Same.lk' $h).ro⟩))

theorem computeY_two (h : Same P g D L s t) :
    Two (Same P g D (.Y :: .Yg :: L)) (computeY P g s) (computeY P g t) := by
  unfold computeY
  split_ifs with h0
  · refine Two.some ?_
    have e1 : (Fld.Y).get P g s = (Fld.Y).get P g t := by simp only [Fld.get, if_pos h0]
    have e2 : (Fld.Yg).get P g s = (Fld.Yg).get P g t := by simp only [Fld.get, if_pos h0]
    sameUpd h, e1, e2
  refine Two.bind (shuffle_two (agr_resize _ _ _)) ?_
  rintro sh _ rfl
  refine Two.bind (sphValues_two (agr_resize _ _ _)) ?_
  rintro Y _ rfl
  refine Two.bind (sphGrads_two (agr_resize _ _ _)) ?_
  rintro Yg _ rfl
  refine Two.same fun Y _ => Two.same fun Yg _ => Two.same fun Yg _ => Two.pure ?_
  have e1 : (Fld.Y).get P g { s with Y := Y, Yg := Yg, xyzs := sh } = (Fld.Y).get P g { t with Y := Y, Yg := Yg, xyzs := sh } := by
    simp only [Fld.get]
  have e2 : (Fld.Yg).get P g { s with Y := Y, Yg := Yg, xyzs := sh } = (Fld.Yg).get P g { t with Y := Y, Yg := Yg, xyzs := sh } := by
    simp only [Fld.get]
  sameUpd h, e1, e2

theorem computeR0_two (hF : Fits nT E P g) (h : Same P g D L s t) :
    Two (Same P g D (.R0 :: .R0d :: L)) (computeR0 P g s) (computeR0 P g t) := by
  unfold computeR0
  refine Two.bind (radial_two hF hF.set0 _ _ _ _) ?_
  rintro ⟨q1, q2⟩ _ rfl
  refine Two.pure ?_
  have e1 : q1 = q1 := rfl
  have e2 : q2 = q2 := rfl
  sameUpd h, e1, e2

theorem computeR1_two (hF : Fits nT E P g) (h : Same P g D L s t) :
    Two (Same P g D (.R1 :: .R1d :: L)) (computeR1 P g s) (computeR1 P g t) := by
  unfold computeR1
  refine Two.bind (radial_two hF hF.set1 _ _ _ _) ?_
  rintro ⟨q1, q2⟩ _ rfl
  refine Two.pure ?_
  have e1 : q1 = q1 := rfl
  have e2 : q2 = q2 := rfl
  sameUpd h, e1, e2

theorem computeA0_two (hF : Fits nT E P g) (hY : Fld.Y ∈ L) (hR : Fld.R0 ∈ L) (h : Same P g D L s t) :
    Two (Same P g D (.A0 :: L)) (computeA0 P g s) (computeA0 P g t) := by
  unfold computeA0
  have hR : s.R0 = t.R0 := h.eq _ hR
  rw [← hR]
  refine Two.bind (Two.nodes (nn := g.nn) (fun i => Agr (g.N * P.M * P.C) (· < i * P.M * P.C)) ?_ hF.nn ?_) ?_
  · exact (agr_resize _ _ _).mono fun p _ hp => by simpa using hp
  · intro i hi a b hab
    refine Two.same fun n hn => ?_
    dsimp only
    rw [edges_congr (f := phi0Edge P g s.Y s.R0) (f' := phi0Edge P g t.Y s.R0)]
    · rw [edgesFrom_eq]
      refine Two.same fun e he => ?_
      obtain ⟨e2, he2, rfl⟩ := Option.map_eq_some_iff.mp he
      refine Two.bind (R := Agr (g.N * P.M * P.C) (· < (i + 1) * P.M * P.C)) ?_ fun a b hab => Two.pure ⟨(off_succ hn).symm, (off_succ hn).symm, hab⟩
      refine Two.mono (blocks_two (b := i * P.M) ?_ hab) fun _ _ h => h.mono fun p _ hp => ?_
      · intro l _ x y hxy
        exact Two.same fun _ _ => Two.same fun _ _ => Two.same fun _ _ => gemm_two rfl hxy
      · have : (i * P.M + (P.lmax + 1) * (P.lmax + 1)) * P.C = (i + 1) * P.M * P.C := by rw [show (P.lmax + 1) * (P.lmax + 1) = P.M from rfl]; ring
        rw [this]; exact hp
    · by_cases h0 : g.xyz.length = 0
      · exact Or.inl (hF.deg hi hn h0)
      · rw [h.y hY h0]; exact Or.inr rfl
  · rintro ⟨c, q⟩ ⟨c', q'⟩ hq
    have hq : q = q' := Agr.pre hq
    subst hq
    refine Two.pure ?_
    have e1 : q = q := rfl
    sameUpd h, e1

theorem computeA0Scaled_two (hA : Fld.A0 ∈ L) (h : Same P g D L s t) :
    Two (Same P g D (.A0 :: L)) (computeA0Scaled P g s) (computeA0Scaled P g t) := by
  unfold computeA0Scaled
  have e : s.A0 = t.A0 := h.eq _ hA
  split_ifs
  · rw [e]
    refine Two.same fun q _ => Two.pure ?_
    have e1 : q = q := rfl
    sameUpd h, e1
  · refine Two.some ?_
    sameUpd h, e

/-! ## Products -/

omit A in
theorem wr_len {b ys : List K} {i : ℕ} {v : K} (h : wr b i v = some ys) : ys.length = b.length := by
  unfold wr at h
  split_ifs at h
  cases h; simp

theorem PsLk.set {Q ps : List (Poly.Poly K)} {j : ℕ} {p p' : Poly.Poly K} (h : PsLk Q ps) (hp : ps[j]? = some p) (hp' : PolyLk p p') : PsLk Q (ps.set j p') := by
  have hj := (List.getElem?_eq_some_iff.mp hp).1
  refine ⟨by simp [h.len], fun k r q hr hq => ?_⟩
  by_cases hk : j = k
  · subst hk
    rw [List.getElem?_set_self hj] at hr
    cases hr
    exact hp'.symm.trans (h.lk j p q hp hq)
  · rw [List.getElem?_set_ne hk] at hr
    exact h.lk k r q hr hq

theorem dcopy_two {n Z : ℕ} {a b b' : List K} {aoff ainc boff binc : ℕ} {S : ℕ → Prop} (h : Agr Z S b b') :
    Two (Agr Z fun p => S p ∨ ∃ j < n, p = boff + j * binc) (dcopy n a aoff ainc boff binc b) (dcopy n a aoff ainc boff binc b') := by
  unfold dcopy
  refine Two.loop (fun n => Agr Z fun p => S p ∨ ∃ j < n, p = boff + j * binc) (h.mono fun p _ hp => ?_) fun i _ x y hxy => ?_
  · exact hp.resolve_right fun ⟨j, hj, _⟩ => absurd hj (by omega)
  · refine Two.same fun v _ => Two.mono hxy.wr fun _ _ h => h.mono fun p _ hp => ?_
    rcases hp with hp | ⟨j, hj, hp⟩
    · exact Or.inl (Or.inl hp)
    · rcases Nat.lt_succ_iff_lt_or_eq.mp hj with hj | rfl
      · exact Or.inl (Or.inr ⟨j, hj, hp⟩)
      · exact Or.inr hp

theorem productStep_two {Q : List (Poly.Poly K)} {Z1 Z2 apos poly opos gpos : ℕ} {S : ℕ → Prop} {Ab : List K}
    {st st' : List K × List K × List K × List (Poly.Poly K)}
    (hv : ∀ q, Q[poly]? = some q → PolyVal q) (h1 : st.1 = st'.1) (h2 : Agr Z1 (· < opos) st.2.1 st'.2.1) (h3 : Agr Z2 S st.2.2.1 st'.2.2.1)
    (h4 : PsLk Q st.2.2.2) (h5 : PsLk Q st'.2.2.2) :
    Two (fun st st' => st.1 = st'.1 ∧ Agr Z1 (· < opos + 1) st.2.1 st'.2.1 ∧ Agr Z2 (fun p => S p ∨ ∃ j < P.M, p = gpos + j * P.C) st.2.2.1 st'.2.2.1 ∧
      PsLk Q st.2.2.2 ∧ PsLk Q st'.2.2.2) (productStep P Ab apos poly opos gpos st) (productStep P Ab apos poly opos gpos st') := by
  unfold productStep
  rw [h1]
  refine Two.same fun x _ => ?_
  intro a b ha hb
  obtain ⟨p, hp, ha⟩ := Option.bind_eq_some_iff.mp ha
  obtain ⟨p', hp', hb⟩ := Option.bind_eq_some_iff.mp hb
  obtain ⟨fg, hfg, ha⟩ := Option.bind_eq_some_iff.mp ha
  obtain ⟨fg', hfg', hb⟩ := Option.bind_eq_some_iff.mp hb
  have hj := (List.getElem?_eq_some_iff.mp hp).1
  rw [h4.len] at hj
  have hq : Q[poly]? = some Q[poly] := List.getElem?_eq_getElem hj
  have l1 := h4.lk _ _ _ hp hq
  have l2 := h5.lk _ _ _ hp' hq
  have v2 := hv _ hq
  have v2' : PolyVal p' := ⟨by rw [l2.co, l2.nv, l2.edges]; exact v2.len, by rw [l2.nv, l2.edges]; exact v2.edge⟩
  obtain ⟨e1, e2⟩ := polyGradient_two (l1.trans l2.symm) v2' x fg fg' hfg hfg'
  rw [e1, e2] at ha
  have key : Two (fun (st st' : List K × List K × List K × List (Poly.Poly K)) => st.1 = st'.1 ∧ Agr Z1 (· < opos + 1) st.2.1 st'.2.1 ∧
    Agr Z2 (fun p => S p ∨ ∃ j < P.M, p = gpos + j * P.C) st.2.2.1 st'.2.2.1 ∧ PsLk Q st.2.2.2 ∧ PsLk Q st'.2.2.2)
    (do
      let out ← wr st.2.1 opos fg'.1
      let grad ← dcopy P.M fg'.2.1 0 1 gpos P.C st.2.2.1
      pure (x, out, grad, st.2.2.2.set poly fg.2.2))
    (do
      let out ← wr st'.2.1 opos fg'.1
      let grad ← dcopy P.M fg'.2.1 0 1 gpos P.C st'.2.2.1
      pure (x, out, grad, st'.2.2.2.set poly fg'.2.2)) := by
    refine Two.bind (h2.wrNext rfl) fun o o' ho => Two.bind (dcopy_two h3) fun d d' hd => Two.pure ⟨rfl, ho, hd, ?_, ?_⟩
    · exact h4.set hp (polyGradient_lk hfg)
    · exact h5.set hp' (polyGradient_lk hfg')
  exact key a b ha hb

/-- The strided positions of one block. -/
theorem strided {B M C p : ℕ} (hp : p < B + M * C) (h : B ≤ p) : ∃ k' < C, ∃ j < M, p = B + k' + j * C := by
  have hC : 0 < C := Nat.pos_of_ne_zero fun h0 => by subst h0; omega
  refine ⟨(p - B) % C, Nat.mod_lt _ hC, (p - B) / C, Nat.div_lt_of_lt_mul (by rw [mul_comm]; omega), ?_⟩
  have := Nat.mod_add_div (p - B) C
  rw [mul_comm] at this
  omega

theorem computeM0_two (hF : Fits nT E P g) (hD : RefOk nT P D) (hA : Fld.A0 ∈ L) (h : Same P g D L s t) :
    Two (Same P g D (.M0 :: .M0g :: L)) (computeM0 P g s) (computeM0 P g t) := by
  unfold computeM0
  have e : s.A0 = t.A0 := h.eq _ hA
  rw [← e]
  refine Two.bind (Two.loop (fun i (q q' : List K × List K × List (Poly.Poly K)) => Agr (g.N * P.LM * P.C) (· < i * P.LM * P.C) q.1 q'.1 ∧
    Agr (g.N * P.C * P.LM * P.M) (· < i * P.LM * P.C * P.M) q.2.1 q'.2.1 ∧ PsLk D.P0 q.2.2 ∧ PsLk D.P0 q'.2.2) ?_ ?_) ?_
  · refine ⟨(agr_resize _ _ _).mono fun p _ hp => by simpa using hp, (agr_resize _ _ _).mono fun p _ hp => by simpa using hp, h.lk.p0, h.lk'.p0⟩
  · rintro i hi ⟨o, d, ps⟩ ⟨o', d', ps'⟩ ⟨h1, h2, h3, h4⟩
    refine Two.bind (Two.loop (fun lm (q q' : ℕ × List K × List K × List K × List (Poly.Poly K)) => q.1 = lm * P.C ∧ q'.1 = lm * P.C ∧ q.2.1 = q'.2.1 ∧
      Agr (g.N * P.LM * P.C) (· < i * P.LM * P.C + lm * P.C) q.2.2.1 q'.2.2.1 ∧
      Agr (g.N * P.C * P.LM * P.M) (· < i * P.LM * P.C * P.M + lm * P.M * P.C) q.2.2.2.1 q'.2.2.2.1 ∧ PsLk D.P0 q.2.2.2.2 ∧ PsLk D.P0 q'.2.2.2.2) ?_ ?_) ?_
    · exact ⟨by simp, by simp, rfl, h1.mono fun p _ hp => by simpa using hp, h2.mono fun p _ hp => by simpa using hp, h3, h4⟩
    · rintro lm hlm ⟨c, x, o, d, ps⟩ ⟨c', x', o', d', ps'⟩ ⟨hc, hc', hx, h1, h2, h3, h4⟩
      dsimp only at hc hc' hx h1 h2 h3 h4
      subst hc; subst hc'; subst hx
      refine Two.mono (Two.cnt (fun k (q q' : List K × List K × List K × List (Poly.Poly K)) => q.1 = q'.1 ∧
        Agr (g.N * P.LM * P.C) (· < i * P.LM * P.C + (lm * P.C + k)) q.2.1 q'.2.1 ∧
        Agr (g.N * P.C * P.LM * P.M) (fun p => p < i * P.LM * P.C * P.M + lm * P.M * P.C ∨ ∃ k' < k, ∃ j < P.M, p = i * P.LM * P.C * P.M + lm * P.M * P.C + k' + j * P.C) q.2.2.1 q'.2.2.1 ∧
        PsLk D.P0 q.2.2.2 ∧ PsLk D.P0 q'.2.2.2) ?_ ?_) ?_
      · exact ⟨rfl, h1, h2.mono fun p _ hp => hp.resolve_right fun ⟨k, hk, _⟩ => absurd hk (by omega), h3, h4⟩
      · rintro k hk ⟨x, o, d, ps⟩ ⟨x', o', d', ps'⟩ ⟨hx, h1, h2, h3, h4⟩
        refine Two.same fun ti hti => ?_
        have hti := hF.typ _ hi _ hti
        refine Two.mono (productStep_two (P := P) (Q := D.P0) (hD.val0 _ ?_) hx h1 h2 h3 h4) ?_
        · have a1 : lm * P.C + k < P.LM * P.C := by
            have := Nat.mul_le_mul_right P.C (show lm + 1 ≤ P.LM from hlm)
            rw [Nat.succ_mul] at this; omega
          have a2 := Nat.mul_le_mul_right (P.LM * P.C) (show ti + 1 ≤ nT from hti)
          rw [Nat.succ_mul] at a2
          have a3 : ti * P.LM * P.C = ti * (P.LM * P.C) := by ring
          have a4 : nT * P.LM * P.C = nT * (P.LM * P.C) := by ring
          omega
        · rintro a b ⟨h1, h2, h3, h4, h5⟩
          refine ⟨h1, h2, h3.mono fun p _ hp => ?_, h4, h5⟩
          rcases hp with hp | ⟨k', hk', j, hj, hp⟩
          · exact Or.inl (Or.inl hp)
          · rcases Nat.lt_succ_iff_lt_or_eq.mp hk' with hk' | rfl
            · exact Or.inl (Or.inr ⟨k', hk', j, hj, hp⟩)
            · exact Or.inr ⟨j, hj, by omega⟩
      · rintro ⟨c, x, o, d, ps⟩ ⟨c', x', o', d', ps'⟩ ⟨hc, hc', hx, h1, h2, h3, h4⟩
        have a1 : (lm + 1) * P.C = lm * P.C + P.C := by ring
        have a2 : (lm + 1) * P.M * P.C = lm * P.M * P.C + P.M * P.C := by ring
        refine ⟨by rw [a1]; exact hc, by rw [a1]; exact hc', hx, by rw [a1]; exact h1, h2.mono fun p _ hp => ?_, h3, h4⟩
        by_cases hB : p < i * P.LM * P.C * P.M + lm * P.M * P.C
        · exact Or.inl hB
        · exact Or.inr (strided (by omega) (by omega))
    · rintro ⟨c, x, o, d, ps⟩ ⟨c', x', o', d', ps'⟩ ⟨hc, hc', hx, h1, h2, h3, h4⟩
      refine Two.pure ⟨?_, ?_, h3, h4⟩
      · have : (i + 1) * P.LM * P.C = i * P.LM * P.C + P.LM * P.C := by ring
        rw [this]; exact h1
      · have : (i + 1) * P.LM * P.C * P.M = i * P.LM * P.C * P.M + P.LM * P.M * P.C := by ring
        rw [this]; exact h2
  · rintro ⟨o, d, ps⟩ ⟨o', d', ps'⟩ ⟨h1, h2, h3, h4⟩
    have hl := h1.l
    have e1 : o = o' := Agr.pre h1
    have e2 : d = d' := Agr.full h2 fun p hp => by
      have : g.N * P.LM * P.C * P.M = g.N * P.C * P.LM * P.M := by ring
      rw [this]; exact hp
    subst e1; subst e2
    refine Two.pure ⟨fun f hf => ?_, ⟨h3, h.lk.p1, h.lk.ro⟩, ⟨h4, h.lk'.p1, h.lk'.ro⟩⟩
    have e1 : o = o := rfl
    have e2 : d = d := rfl
    cases f <;> first | exact ⟨e1, hl⟩ | exact ⟨e2, trivial⟩ | exact h.all _ (by simpa using hf) | exact ⟨rfl, (h.all _ (by simpa using hf)).2⟩

theorem computeH1_two (hM : Fld.M0 ∈ L) (h : Same P g D L s t) :
    Two (Same P g D (.H1 :: L)) (computeH1 P g s) (computeH1 P g t) := by
  unfold computeH1
  have e : s.M0 = t.M0 := h.eq _ hM
  have hl : s.M0.length = g.N * P.LM * P.C := (h.all _ hM).2
  rw [← e, hl]
  refine Two.bind (Two.loop (fun i => Agr (g.N * P.LM * P.C) (· < i * P.LM * P.C)) ?_ fun i hi x y hxy => ?_) ?_
  · exact (agr_resize _ _ _).mono fun p _ hp => by simpa using hp
  · refine Two.mono (blocks_two (b := i * P.LM) (fun l _ x y hxy => gemm_two rfl hxy) hxy) fun _ _ h => h.mono fun p _ hp => ?_
    have : (i * P.LM + (P.Lmax + 1) * (P.Lmax + 1)) * P.C = (i + 1) * P.LM * P.C := by rw [show (P.Lmax + 1) * (P.Lmax + 1) = P.LM from rfl]; ring
    rw [this]; exact hp
  · intro q q' hq
    have hq : q = q' := Agr.pre hq
    subst hq
    refine Two.pure ?_
    have e1 : q = q := rfl
    sameUpd h, e1

end

end Verif.Num
