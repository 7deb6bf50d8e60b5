import Verif.Lemmas.Num.SameStages

/-! # The stages with different old contents of the buffers: second layer, readout and reverse pass -/

namespace Verif.Num
open Verif.MACE

variable {K : Type} [A : Arith K] {nT E : ℕ} {P : Params K} {g : Graph K} {D : Ref K} {L : List Fld} {s t : State K}

theorem phi1Edge_congr (hY : s.Y = t.Y) (hR : s.R1 = t.R1) (hH : s.H1 = t.H1) : phi1Edge P g s = phi1Edge P g t := by
  funext i ij phi
  unfold phi1Edge
  rw [hY, hR, hH]

theorem phi1Force_congr (hY : s.Y = t.Y) (hYg : s.Yg = t.Yg) (hR : s.R1 = t.R1) (hRd : s.R1d = t.R1d) (hH : s.H1 = t.H1) :
    phi1Force P g s = phi1Force P g t := by
  funext dr i ij phi
  unfold phi1Force
  rw [hY, hR, hH, hYg, hRd]

theorem phi1Adj_congr (hY : s.Y = t.Y) (hR : s.R1 = t.R1) : phi1Adj P g s = phi1Adj P g t := by
  funext dr i ij phi
  unfold phi1Adj
  rw [hY, hR]

theorem phi0Force_congr (hY : s.Y = t.Y) (hYg : s.Yg = t.Yg) (hR : s.R0 = t.R0) (hRd : s.R0d = t.R0d) :
    phi0Force P g s = phi0Force P g t := by
  funext adj ij F
  unfold phi0Force
  rw [hY, hR, hYg, hRd]

/-- Loops over nodes and edges that read equal buffers. -/
theorem nodes_congr (hF : Fits nT E P g) {σ : Type} {f f' : ℕ → ℕ → σ → Option σ} (hf : g.xyz.length ≠ 0 → f = f') (x : ℕ × σ) :
    (loop g.N (fun i (q : ℕ × σ) => do
      let n ← g.nn[i]?
      edgesFrom n (f i) q) x) =
    (loop g.N (fun i (q : ℕ × σ) => do
      let n ← g.nn[i]?
      edgesFrom n (f' i) q) x) := by
  by_cases h0 : g.xyz.length = 0
  · refine loop_congr (fun i hi s => ?_) x
    cases hn : g.nn[i]? with
    | none => rfl
    | some n => exact edges_congr _ (Or.inl (hF.deg hi hn h0))
  · rw [hf h0]

theorem computePhi1_two (hF : Fits nT E P g) (hY : Fld.Y ∈ L) (hR : Fld.R1 ∈ L) (hH : Fld.H1 ∈ L) (h : Same P g D L s t) :
    Two (Same P g D (.Phi1 :: .Phi1r :: L)) (computePhi1 P g s) (computePhi1 P g t) := by
  unfold computePhi1
  rw [nodes_congr hF (f := phi1Edge P g s) (f' := phi1Edge P g t) fun h0 => phi1Edge_congr (h.y hY h0) (h.eq _ hR) (h.eq _ hH)]
  refine Two.same fun q _ => Two.same fun phi hphi => Two.pure ?_
  have hl : phi.length = g.N * P.numLme * P.C := by
    have ml : ∀ (b : List K) i f ys, md b i f = some ys → ys.length = b.length := fun b i f ys h => by
      unfold md at h
      cases hx : b[i]? with
      | none => rw [hx] at h; cases h
      | some y => rw [hx] at h; cases h; simp
    have : phi.length = (List.replicate (g.N * P.numLme * P.C) (0 : K)).length := by
      unfold cgPass at hphi
      refine loop_len hphi fun i xs ys h => loop_len h fun p xs ys h => ?_
      obtain ⟨a, -, h⟩ := Option.bind_eq_some_iff.mp h
      obtain ⟨b, -, h⟩ := Option.bind_eq_some_iff.mp h
      obtain ⟨c, -, h⟩ := Option.bind_eq_some_iff.mp h
      refine loop_len h fun k xs ys h => ?_
      obtain ⟨x, -, h⟩ := Option.bind_eq_some_iff.mp h
      exact ml _ _ _ _ h
    simpa using this
  have e1 : phi = phi := rfl
  have e2 : q.2 = q.2 := rfl
  sameUpd h, e1, e2

/-- Sum of the first blocks. -/
def psum (e : ℕ → ℕ) (n : ℕ) : ℕ := ((List.range n).map fun l => (2 * l + 1) * e l).sum

theorem psum_succ (e : ℕ → ℕ) (n : ℕ) : psum e (n + 1) = psum e n + (2 * n + 1) * e n := by
  simp [psum, List.range_succ]

theorem computeA1_two (hF : Fits nT E P g) (hP : Fld.Phi1 ∈ L) (h : Same P g D L s t) :
    Two (Same P g D (.A1 :: L)) (computeA1 P g s) (computeA1 P g t) := by
  unfold computeA1
  have e : s.Phi1 = t.Phi1 := h.eq _ hP
  refine Two.same fun ne hne => ?_
  rw [← e]
  refine Two.bind (Two.loop (fun i => Agr (g.N * P.M * P.C) (· < i * P.M * P.C)) ?_ fun i hi x y hxy => ?_) ?_
  · exact (agr_resize _ _ _).mono fun p _ hp => by simpa using hp
  · refine Two.bind (Two.loop (fun l (q q' : ℕ × ℕ × List K) => q.1 = q'.1 ∧ q.2.1 = i * P.M * P.C + l * l * P.C ∧ q'.2.1 = i * P.M * P.C + l * l * P.C ∧
      Agr (g.N * P.M * P.C) (· < i * P.M * P.C + l * l * P.C) q.2.2 q'.2.2) ⟨rfl, by simp, by simp, by simpa using hxy⟩ ?_) ?_
    · rintro l hl ⟨c, o, x⟩ ⟨c', o', x'⟩ ⟨h1, h2, h3, h4⟩
      dsimp only at h1 h2 h3 h4
      subst h1; subst h2; subst h3
      refine Two.same fun e _ => Two.same fun w _ => Two.bind (gemm_two rfl h4) fun x x' hx => Two.pure ?_
      have : i * P.M * P.C + (l + 1) * (l + 1) * P.C = i * P.M * P.C + l * l * P.C + (2 * l + 1) * P.C := by ring
      rw [this]
      exact ⟨rfl, rfl, rfl, hx⟩
    · rintro q q' ⟨-, -, -, h4⟩
      refine Two.pure ?_
      have : (i + 1) * P.M * P.C = i * P.M * P.C + (P.lmax + 1) * (P.lmax + 1) * P.C := by rw [show (P.lmax + 1) * (P.lmax + 1) = P.M from rfl]; ring
      rw [this]
      exact h4
  · intro q q' hq
    have hl := hq.l
    have hq : q = q' := Agr.pre hq
    subst hq
    refine Two.pure ?_
    have e1 : q = q := rfl
    sameUpd h, e1

theorem scaleForward_two {nE len Z : ℕ} {spl : List (Spline.CubicSpline K)} {x y : List K} (h : Agr Z (fun _ => True) x y) :
    Two (Agr Z fun _ => True) (scaleForward nE spl len g x) (scaleForward nE spl len g y) := by
  unfold scaleForward
  refine Two.bind (Two.loop (fun _ (q q' : ℕ × List K) => q.1 = q'.1 ∧ Agr Z (fun _ => True) q.2 q'.2) ⟨rfl, h⟩ ?_) fun q q' hq => Two.pure hq.2
  rintro i hi ⟨c, x⟩ ⟨c', y⟩ ⟨h1, h2⟩
  dsimp only at h1 h2 ⊢
  subst h1
  refine Two.same fun _ _ => Two.same fun _ _ => Two.same fun f _ => ?_
  exact Two.bind (Two.loop (fun _ => Agr Z fun _ => True) h2 fun p _ x y hxy => hxy.md trivial) fun x y hxy => Two.pure ⟨rfl, hxy⟩

theorem computeA1Scaled_two (hA : Fld.A1 ∈ L) (h : Same P g D L s t) :
    Two (Same P g D (.A1 :: L)) (computeA1Scaled P g s) (computeA1Scaled P g t) := by
  unfold computeA1Scaled
  have hl : s.A1.length = g.N * P.M * P.C := (h.all _ hA).2
  have e : s.A1 = t.A1 := h.eq _ hA
  split_ifs
  · refine Two.bind (scaleForward_two (agr_eq e hl)) fun q q' hq => ?_
    have hl := hq.l
    have hq : q = q' := hq.full fun _ _ => trivial
    subst hq
    refine Two.pure ?_
    have e1 : q = q := rfl
    sameUpd h, e1
  · refine Two.some ?_
    sameUpd h, e

theorem computeM1_two (hF : Fits nT E P g) (hD : RefOk nT P D) (hA : Fld.A1 ∈ L) (h : Same P g D L s t) :
    Two (Same P g D (.M1 :: .M1g :: L)) (computeM1 P g s) (computeM1 P g t) := by
  unfold computeM1
  have e : s.A1 = t.A1 := h.eq _ hA
  rw [← e]
  refine Two.bind (Two.loop (fun i (q q' : List K × List K × List (Poly.Poly K)) => Agr (g.N * P.C) (· < i * P.C) q.1 q'.1 ∧
    Agr (g.N * P.C * P.M * P.C) (· < i * P.C * P.M) q.2.1 q'.2.1 ∧ PsLk D.P1 q.2.2 ∧ PsLk D.P1 q'.2.2) ?_ ?_) ?_
  · refine ⟨(agr_resize _ _ _).mono fun p _ hp => by simpa using hp, (agr_resize _ _ _).mono fun p _ hp => by simpa using hp, h.lk.p1, h.lk'.p1⟩
  · rintro i hi ⟨o, d, ps⟩ ⟨o', d', ps'⟩ ⟨h1, h2, h3, h4⟩
    dsimp only at h1 h2 h3 h4
    refine Two.bind (Two.loop (fun k (q q' : List K × List K × List K × List (Poly.Poly K)) => q.1 = q'.1 ∧
      Agr (g.N * P.C) (· < i * P.C + k) q.2.1 q'.2.1 ∧
      Agr (g.N * P.C * P.M * P.C) (fun p => p < i * P.C * P.M ∨ ∃ k' < k, ∃ j < P.M, p = i * P.C * P.M + k' + j * P.C) q.2.2.1 q'.2.2.1 ∧
      PsLk D.P1 q.2.2.2 ∧ PsLk D.P1 q'.2.2.2) ?_ ?_) ?_
    · exact ⟨rfl, h1, h2.mono fun p _ hp => hp.resolve_right fun ⟨k, hk, _⟩ => absurd hk (by omega), h3, h4⟩
    · rintro k hk ⟨x, o, d, ps⟩ ⟨x', o', d', ps'⟩ ⟨hx, h1, h2, h3, h4⟩
      refine Two.same fun ti hti => ?_
      have hti := hF.typ _ hi _ hti
      refine Two.mono (productStep_two (P := P) (Q := D.P1) (hD.val1 _ ?_) hx h1 h2 h3 h4) ?_
      · have a2 := Nat.mul_le_mul_right P.C (show ti + 1 ≤ nT from hti)
        rw [Nat.succ_mul] at a2
        omega
      · rintro a b ⟨h1, h2, h3, h4, h5⟩
        refine ⟨h1, h2, h3.mono fun p _ hp => ?_, h4, h5⟩
        rcases hp with hp | ⟨k', hk', j, hj, hp⟩
        · exact Or.inl (Or.inl hp)
        · rcases Nat.lt_succ_iff_lt_or_eq.mp hk' with hk' | rfl
          · exact Or.inl (Or.inr ⟨k', hk', j, hj, hp⟩)
          · exact Or.inr ⟨j, hj, hp⟩
    · rintro ⟨x, o, d, ps⟩ ⟨x', o', d', ps'⟩ ⟨hx, h1, h2, h3, h4⟩
      refine Two.pure ⟨?_, ?_, h3, h4⟩
      · have : (i + 1) * P.C = i * P.C + P.C := by ring
        rw [this]; exact h1
      · refine h2.mono fun p _ hp => ?_
        have : (i + 1) * P.C * P.M = i * P.C * P.M + P.M * P.C := by ring
        by_cases hB : p < i * P.C * P.M
        · exact Or.inl hB
        · exact Or.inr (strided (by omega) (by omega))
  · rintro ⟨o, d, ps⟩ ⟨o', d', ps'⟩ ⟨h1, h2, h3, h4⟩
    dsimp only at h1 h2 h3 h4
    have hl := h1.l
    have e1 : o = o' := Agr.pre h1
    have e2 : d.take (g.N * P.M * P.C) = d'.take (g.N * P.M * P.C) := by
      refine List.ext_getElem? fun p => ?_
      rw [List.getElem?_take, List.getElem?_take]
      split_ifs with hp
      · refine h2.eq p ?_
        have : g.N * P.C * P.M = g.N * P.M * P.C := by ring
        omega
      · rfl
    subst e1
    refine Two.pure ⟨fun f hf => ?_, ⟨h.lk.p0, h3, h.lk.ro⟩, ⟨h.lk'.p0, h4, h.lk'.ro⟩⟩
    have e1 : o = o := rfl
    cases f <;> first | exact ⟨e1, hl⟩ | exact ⟨e2, trivial⟩ | exact h.all _ (by simpa using hf) | exact ⟨rfl, trivial⟩ | exact ⟨rfl, (h.all _ (by simpa using hf)).2⟩

theorem computeH2_two (hH : Fld.H1 ∈ L) (hM : Fld.M1 ∈ L) (h : Same P g D L s t) :
    Two (Same P g D (.H2 :: L)) (computeH2 P g s) (computeH2 P g t) := by
  unfold computeH2
  have e1 : s.H1 = t.H1 := h.eq _ hH
  have e2 : s.M1 = t.M1 := h.eq _ hM
  rw [← e1, ← e2]
  refine Two.bind (Two.loop (fun i => Agr (g.N * P.C) (· < i * P.C)) ?_ fun i hi x y hxy => ?_) ?_
  · exact (agr_resize _ _ _).mono fun p _ hp => by simpa using hp
  · refine Two.same fun _ _ => Two.same fun _ _ => Two.bind (gemv_two hxy) fun x y hxy => ?_
    simp only [if_true] at hxy
    have : (i + 1) * P.C = i * P.C + P.C := by ring
    rw [this]
    exact gemvAcc_two hxy fun j hj => by simp only [if_true] at hj; omega
  · intro q q' hq
    have hl := hq.l
    have hq : q = q' := Agr.pre hq
    subst hq
    refine Two.pure ?_
    have e1 : q = q := rfl
    sameUpd h, e1

theorem computeReadouts_two (hE : Fld.E ∈ L) (hH1 : Fld.H1 ∈ L) (hH2 : Fld.H2 ∈ L) (h : Same P g D L s t) :
    Two (Same P g D (.E :: .H1a :: .H2a :: L)) (computeReadouts P g s) (computeReadouts P g t) := by
  unfold computeReadouts
  have hl : s.H2.length = g.N * P.C := (h.all _ hH2).2
  have e0 : s.nodeEnergies = t.nodeEnergies := h.eq _ hE
  have e1 : s.H1 = t.H1 := h.eq _ hH1
  have e2 : s.H2 = t.H2 := h.eq _ hH2
  rw [← e0, ← e1, ← e2]
  refine Two.bind (Two.loop (fun i (q q' : List K × List K × List K × MLP.MLP K) => q.1 = q'.1 ∧ q.2.1 = q'.2.1 ∧ Agr (g.N * P.C) (· < i * P.C) q.2.2.1 q'.2.2.1 ∧
    MlpLk P.C D.w1 D.w2 D.sc q.2.2.2 ∧ MlpLk P.C D.w1 D.w2 D.sc q'.2.2.2) ?_ ?_) ?_
  · rw [hl]
    exact ⟨rfl, rfl, (agr_resize _ _ _).mono fun p _ hp => by simpa using hp, h.lk.ro, h.lk'.ro⟩
  · rintro i hi ⟨a, b, c, m⟩ ⟨a', b', c', m'⟩ ⟨h1, h2, h3, h4, h5⟩
    dsimp only at h1 h2 h3 h4 h5 ⊢
    subst h1; subst h2
    refine Two.same fun ti _ => Two.same fun e _ => Two.same fun E _ => Two.same fun q1 _ => Two.same fun x hx => ?_
    have hx : x.length = P.C := by
      split_ifs at hx with hc
      cases hx
      rw [Nat.succ_mul] at hc
      rw [List.length_take, List.length_drop]
      omega
    refine Two.bind (mlpGradient_two h4 h5 hx) ?_
    rintro ⟨f, j, m⟩ ⟨f', j', m'⟩ ⟨h1, h2, h4, h5⟩
    dsimp only at h1 h2 h4 h5 ⊢
    subst h1; subst h2
    refine Two.same fun f0 _ => Two.same fun E _ => ?_
    refine Two.bind (Two.loop (fun k => Agr (g.N * P.C) (· < i * P.C + k)) h3 fun k _ x y hxy => Two.same fun v _ => hxy.wrNext rfl) fun x y hxy => Two.pure ?_
    have : (i + 1) * P.C = i * P.C + P.C := by ring
    rw [this]
    exact ⟨rfl, rfl, hxy, h4, h5⟩
  · rintro ⟨a, b, c, m⟩ ⟨a', b', c', m'⟩ ⟨h1, h2, h3, h4, h5⟩
    dsimp only at h1 h2 h3 h4 h5 ⊢
    have h3 : c = c' := Agr.pre h3
    refine Two.pure ⟨fun f hf => ?_, ⟨h.lk.p0, h.lk.p1, h4⟩, ⟨h.lk'.p0, h.lk'.p1, h5⟩⟩
    cases f <;> first | exact ⟨h1, trivial⟩ | exact ⟨h2, trivial⟩ | exact ⟨h3, trivial⟩ | exact h.all _ (by simpa using hf) | exact ⟨rfl, trivial⟩ | exact ⟨rfl, (h.all _ (by simpa using hf)).2⟩

theorem reverseH2_two (hH1 : Fld.H1 ∈ L) (hH1a : Fld.H1a ∈ L) (hH2a : Fld.H2a ∈ L) (hM : Fld.M1 ∈ L) {z : Bool}
    (h : Same P g D L s t) : Two (Same P g D (.H1a :: .M1a :: L)) (reverseH2 P g z s) (reverseH2 P g z t) := by
  unfold reverseH2
  have hl : s.M1.length = g.N * P.C := (h.all _ hM).2
  have e0 : s.H1 = t.H1 := h.eq _ hH1
  have e1 : s.H1a = t.H1a := h.eq _ hH1a
  have e2 : s.H2a = t.H2a := h.eq _ hH2a
  have e3 : s.M1 = t.M1 := h.eq _ hM
  rw [← e0, ← e1, ← e2, ← e3, hl]
  refine Two.bind (Two.loop (fun i (q q' : List K × List K) => q.1 = q'.1 ∧ Agr (g.N * P.C) (· < i * P.C) q.2 q'.2) ?_ ?_) ?_
  · exact ⟨rfl, (agr_resize _ _ _).mono fun p _ hp => by simpa using hp⟩
  · rintro i hi ⟨a, b⟩ ⟨a', b'⟩ ⟨h1, h2⟩
    dsimp only at h1 h2 ⊢
    subst h1
    refine Two.same fun _ _ => Two.same fun _ _ => Two.same fun a _ => Two.bind (gemv_two h2) fun b b' hb => Two.pure ⟨rfl, ?_⟩
    have : (i + 1) * P.C = i * P.C + P.C := by ring
    rw [this]
    simpa using hb
  · rintro ⟨a, b⟩ ⟨a', b'⟩ ⟨h1, h2⟩
    dsimp only at h1 h2 ⊢
    have h2 : b = b' := Agr.pre h2
    refine Two.pure ?_
    sameUpd h, h1, h2

theorem reverseM1_two (hg : Fld.M1g ∈ L) (ha : Fld.M1a ∈ L) (hA : Fld.A1 ∈ L)
    (h : Same P g D L s t) : Two (Same P g D (.A1a :: L)) (reverseM1 P g s) (reverseM1 P g t) := by
  unfold reverseM1
  have hl : s.A1.length = g.N * P.M * P.C := (h.all _ hA).2
  have e0 : s.M1g.take (g.N * P.M * P.C) = t.M1g.take (g.N * P.M * P.C) := h.eq _ hg
  have e1 : s.M1a = t.M1a := h.eq _ ha
  have e2 : s.A1 = t.A1 := h.eq _ hA
  rw [← e1, ← e2, hl]
  refine Two.bind (Two.loop (fun i => Agr (g.N * P.M * P.C) (· < i * P.M * P.C)) ?_ fun i hi x y hxy => ?_) ?_
  · exact (agr_resize _ _ _).mono fun p _ hp => by simpa using hp
  · refine Two.mono (Two.loop (fun lm => Agr (g.N * P.M * P.C) (· < (i * P.M + lm) * P.C)) (by simpa using hxy) fun lm hlm x y hxy => ?_) fun _ _ h => ?_
    · refine Two.mono (Two.loop (fun k => Agr (g.N * P.M * P.C) (· < (i * P.M + lm) * P.C + k)) hxy fun k hk x y hxy => ?_) fun _ _ h => ?_
      · have hp : (i * P.M + lm) * P.C + k < g.N * P.M * P.C := by
          have a1 : i * P.M + lm < g.N * P.M := by
            have := Nat.mul_le_mul_right P.M (show i + 1 ≤ g.N from hi)
            rw [Nat.succ_mul] at this; omega
          have := Nat.mul_le_mul_right P.C (show i * P.M + lm + 1 ≤ g.N * P.M from a1)
          rw [Nat.succ_mul] at this; omega
        have : s.M1g[(i * P.M + lm) * P.C + k]? = t.M1g[(i * P.M + lm) * P.C + k]? := by
          have := congrArg (·[(i * P.M + lm) * P.C + k]?) e0
          simpa only [List.getElem?_take, if_pos hp] using this
        rw [this]
        exact Two.same fun _ _ => Two.same fun _ _ => hxy.wrNext rfl
      · have : (i * P.M + (lm + 1)) * P.C = (i * P.M + lm) * P.C + P.C := by ring
        rw [this]; exact h
    · have : (i + 1) * P.M * P.C = (i * P.M + P.M) * P.C := by ring
      rw [this]; exact h
  · intro q q' hq
    have hq : q = q' := Agr.pre hq
    subst hq
    refine Two.pure ?_
    have e1 : q = q := rfl
    sameUpd h, e1

theorem reverseA1Scaled_two (hA : Fld.A1 ∈ L) (ha : Fld.A1a ∈ L) (hN : Fld.F ∈ L) {z : Bool} (h : Same P g D L s t) :
    Two (Same P g D (.F :: .A1a :: L)) (reverseA1Scaled P g z s) (reverseA1Scaled P g z t) := by
  unfold reverseA1Scaled
  have e0 : s.A1 = t.A1 := h.eq _ hA
  have e1 : s.A1a = t.A1a := h.eq _ ha
  have e2 : s.nodeForces = t.nodeForces := h.eq _ hN
  split_ifs
  · rw [← e0, ← e1, ← e2]
    refine Two.same fun q _ => Two.pure ?_
    have e1 : q.1 = q.1 := rfl
    have e2 : q.2 = q.2 := rfl
    sameUpd h, e1, e2
  · rw [← e0, ← e1, ← e2]
    refine Two.same fun q _ => Two.pure ?_
    have e1 : q.1 = q.1 := rfl
    have e2 : q.2 = q.2 := rfl
    sameUpd h, e1, e2
  · refine Two.some ?_
    sameUpd h, e1, e2

theorem reverseA1_two (hF : Fits nT E P g) (ha : Fld.A1a ∈ L) (hP : Fld.Phi1 ∈ L) (h : Same P g D L s t) :
    Two (Same P g D (.dPhi1 :: L)) (reverseA1 P g s) (reverseA1 P g t) := by
  unfold reverseA1
  have hl : s.Phi1.length = g.N * P.numLme * P.C := (h.all _ hP).2
  have e0 : s.A1a = t.A1a := h.eq _ ha
  have e1 : s.Phi1 = t.Phi1 := h.eq _ hP
  rw [← e0, ← e1, hl, hF.lme]
  obtain ⟨e, hne, hsum⟩ := hF.numE
  rw [hne]
  have hsum : psum e (P.lmax + 1) = sumLme P.phil := hsum
  refine Two.same fun ne hne' => ?_
  cases hne'
  refine Two.bind (Two.loop (fun i => Agr (g.N * sumLme P.phil * P.C) (· < i * sumLme P.phil * P.C)) ?_ fun i hi x y hxy => ?_) ?_
  · exact (agr_resize _ _ _).mono fun p _ hp => by simpa using hp
  · refine Two.bind (Two.loop (fun l (q q' : ℕ × ℕ × List K) => q.1 = q'.1 ∧ q.2.1 = i * sumLme P.phil * P.C + psum e l * P.C ∧ q'.2.1 = i * sumLme P.phil * P.C + psum e l * P.C ∧
      Agr (g.N * sumLme P.phil * P.C) (· < i * sumLme P.phil * P.C + psum e l * P.C) q.2.2 q'.2.2) ⟨rfl, by simp [psum], by simp [psum], by simpa [psum] using hxy⟩ ?_) ?_
    · rintro l hl ⟨c, o, x⟩ ⟨c', o', x'⟩ ⟨h1, h2, h3, h4⟩
      dsimp only at h1 h2 h3 h4
      subst h1; subst h2; subst h3
      refine Two.same fun el hel => Two.same fun w _ => Two.bind (gemm_two rfl h4) fun x x' hx => Two.pure ?_
      rw [getElem?_tab_lt hl] at hel
      cases hel
      have a1 : i * sumLme P.phil * P.C + psum e (l + 1) * P.C = i * sumLme P.phil * P.C + psum e l * P.C + (2 * l + 1) * (e l * P.C) := by
        rw [psum_succ]; ring
      have a2 : i * sumLme P.phil * P.C + psum e (l + 1) * P.C = i * sumLme P.phil * P.C + psum e l * P.C + (2 * l + 1) * e l * P.C := by
        rw [psum_succ]; ring
      refine ⟨rfl, a2.symm, a2.symm, ?_⟩
      rw [a1]
      exact hx
    · rintro q q' ⟨-, -, -, h4⟩
      refine Two.pure ?_
      have : (i + 1) * sumLme P.phil * P.C = i * sumLme P.phil * P.C + psum e (P.lmax + 1) * P.C := by rw [hsum]; ring
      rw [this]
      exact h4
  · intro q q' hq
    have hq : q = q' := Agr.pre hq
    subst hq
    refine Two.pure ?_
    have e1 : q = q := rfl
    sameUpd h, e1

theorem reversePhi1_two (hF : Fits nT E P g) (hY : Fld.Y ∈ L) (hYg : Fld.Yg ∈ L) (hR : Fld.R1 ∈ L) (hRd : Fld.R1d ∈ L) (hH : Fld.H1 ∈ L)
    (hHa : Fld.H1a ∈ L) (hN : Fld.F ∈ L) (hd : Fld.dPhi1 ∈ L) (hP : Fld.Phi1r ∈ L) {z z' : Bool} (h : Same P g D L s t) :
    Two (Same P g D (.F :: .H1a :: L)) (reversePhi1 P g z z' s) (reversePhi1 P g z z' t) := by
  unfold reversePhi1
  have e0 : s.dPhi1 = t.dPhi1 := h.eq _ hd
  have e1 : s.Phi1r = t.Phi1r := h.eq _ hP
  have e2 : s.nodeForces = t.nodeForces := h.eq _ hN
  have e3 : s.H1a = t.H1a := h.eq _ hHa
  have e4 : s.H1 = t.H1 := h.eq _ hH
  rw [← e0, ← e1, ← e2, ← e3, ← e4]
  refine Two.same fun dr _ => ?_
  dsimp only
  rw [nodes_congr hF (f := phi1Force P g s dr) (f' := phi1Force P g t dr) fun h0 => by
    rw [phi1Force_congr (h.y hY h0) (h.yg hYg h0) (h.eq _ hR) (h.eq _ hRd) e4]]
  refine Two.same fun q _ => ?_
  rw [nodes_congr hF (f := phi1Adj P g s dr) (f' := phi1Adj P g t dr) fun h0 => by rw [phi1Adj_congr (h.y hY h0) (h.eq _ hR)]]
  refine Two.same fun ha _ => Two.pure ?_
  have f1 : q.2 = q.2 := rfl
  have f2 : ha.2 = ha.2 := rfl
  sameUpd h, f1, f2

theorem reverseH1_two (hHa : Fld.H1a ∈ L) (hM : Fld.M0 ∈ L) (h : Same P g D L s t) :
    Two (Same P g D (.M0a :: L)) (reverseH1 P g s) (reverseH1 P g t) := by
  unfold reverseH1
  have hl : s.M0.length = g.N * P.LM * P.C := (h.all _ hM).2
  have e : s.M0 = t.M0 := h.eq _ hM
  have e' : s.H1a = t.H1a := h.eq _ hHa
  rw [← e, ← e', hl]
  refine Two.bind (Two.loop (fun i => Agr (g.N * P.LM * P.C) (· < i * P.LM * P.C)) ?_ fun i hi x y hxy => ?_) ?_
  · exact (agr_resize _ _ _).mono fun p _ hp => by simpa using hp
  · refine Two.mono (blocks_two (b := i * P.LM) (fun l _ x y hxy => gemm_two rfl hxy) hxy) fun _ _ h => h.mono fun p _ hp => ?_
    have : (i * P.LM + (P.Lmax + 1) * (P.Lmax + 1)) * P.C = (i + 1) * P.LM * P.C := by rw [show (P.Lmax + 1) * (P.Lmax + 1) = P.LM from rfl]; ring
    rw [this]; exact hp
  · intro q q' hq
    have hq : q = q' := Agr.pre hq
    subst hq
    refine Two.pure ?_
    have e1 : q = q := rfl
    sameUpd h, e1

theorem reverseM0_two (hg : Fld.M0g ∈ L) (ha : Fld.M0a ∈ L) (hA : Fld.A0 ∈ L) (h : Same P g D L s t) :
    Two (Same P g D (.A0a :: L)) (reverseM0 P g s) (reverseM0 P g t) := by
  unfold reverseM0
  have e0 : s.M0g = t.M0g := h.eq _ hg
  have e1 : s.M0a = t.M0a := h.eq _ ha
  have e2 : s.A0 = t.A0 := h.eq _ hA
  rw [← e0, ← e1, ← e2]
  refine Two.same fun q _ => Two.pure ?_
  have f1 : q = q := rfl
  sameUpd h, f1, e0, e1, e2

theorem reverseA0Scaled_two (hA : Fld.A0 ∈ L) (ha : Fld.A0a ∈ L) (hN : Fld.F ∈ L) (h : Same P g D L s t) :
    Two (Same P g D (.F :: .A0a :: L)) (reverseA0Scaled P g s) (reverseA0Scaled P g t) := by
  unfold reverseA0Scaled
  have e0 : s.A0 = t.A0 := h.eq _ hA
  have e1 : s.A0a = t.A0a := h.eq _ ha
  have e2 : s.nodeForces = t.nodeForces := h.eq _ hN
  split_ifs
  · rw [← e0, ← e1, ← e2]
    refine Two.same fun q _ => Two.pure ?_
    have e1 : q.1 = q.1 := rfl
    have e2 : q.2 = q.2 := rfl
    sameUpd h, e1, e2
  · refine Two.some ?_
    sameUpd h, e1, e2

theorem reverseA0_two (hF : Fits nT E P g) (hY : Fld.Y ∈ L) (hYg : Fld.Yg ∈ L) (hR : Fld.R0 ∈ L) (hRd : Fld.R0d ∈ L) (ha : Fld.A0a ∈ L) (hN : Fld.F ∈ L)
    (h : Same P g D L s t) : Two (Same P g D (.F :: L)) (reverseA0 P g s) (reverseA0 P g t) := by
  unfold reverseA0
  have e1 : s.A0a = t.A0a := h.eq _ ha
  have e2 : s.nodeForces = t.nodeForces := h.eq _ hN
  rw [← e1, ← e2]
  refine Two.bind (R := Eq) (Two.loop (fun _ => Eq) rfl ?_) ?_
  · rintro i hi q _ rfl
    refine Two.same fun adj _ => ?_
    refine Two.same fun n hn => ?_
    rw [edges_congr (f := phi0Force P g s adj) (f' := phi0Force P g t adj)]
    · exact Two.refl
    · by_cases h0 : g.xyz.length = 0
      · exact Or.inl (hF.deg hi hn h0)
      · rw [phi0Force_congr (h.y hY h0) (h.yg hYg h0) (h.eq _ hR) (h.eq _ hRd)]; exact Or.inr rfl
  · rintro q _ rfl
    refine Two.pure ?_
    have f1 : q.2 = q.2 := rfl
    sameUpd h, f1

end Verif.Num
