import Verif.Lemmas.MACE.Adjoint
import Verif.Lemmas.PolyReach

/-! # Stage lemmas: `compute_M0`, `compute_M1` -/

namespace Verif.Poly
open Verif.Spec

variable {K : Type} [CommRing K]

/-- `P` is an object representing the polynomial, in any state of its scratch buffers. -/
structure PolyIs (M : ℕ) (co : List K) (mo : List (List ℕ)) (P : Poly K) : Prop where
  valid : Valid P
  lv : P.nodes.length ≤ P.nodeValues.length
  la : P.nodes.length ≤ P.nodeAdjoints.length
  nv : P.numVariables = M
  sum : ∀ F : List ℕ → K, nodeSum P F = ((mo.zip co).map (fun q => q.2 * F q.1)).sum

/-- Partial derivative with respect to variable `v`. -/
def polyGrad (co : List K) (mo : List (List ℕ)) (X : ℕ → K) (v : ℕ) : K :=
  ((mo.zip co).map (fun q => q.2 * lbz X (fun w => if w = v then 1 else 0) q.1)).sum

theorem PolyIs.eval {M : ℕ} {co : List K} {mo : List (List ℕ)} {P : Poly K} (h : PolyIs M co mo P) {x : List K} {X : ℕ → K}
    (hx : ∀ v < M, x[v]? = some (X v)) :
    ∃ P', P.evaluateGradient x = some (polynomial co mo X, tab M (polyGrad co mo X), P') ∧ PolyIs M co mo P' := by
  obtain ⟨hv, l1, l2, e, hs⟩ := h
  subst e
  obtain ⟨v, w, G, h1, h2, h3, h4⟩ := evaluateGradient_spec hv hx l1 l2
  refine ⟨_, ?_, hv.like v w, by rw [h1]; exact l1, by rw [h2]; exact l2, rfl, fun F => hs F⟩
  rw [h3, hs]
  congr 2
  rw [Prod.mk.injEq]
  refine ⟨tab_congr (fun i hi => ?_), rfl⟩
  have := h4 (fun w => if w = i then 1 else 0)
  rw [hs] at this
  simpa [polyGrad, hi] using this

/-- The gradient pairs with a direction to the directional derivative. -/
theorem PolyIs.pairing {M : ℕ} {co : List K} {mo : List (List ℕ)} {P : Poly K} (h : PolyIs M co mo P) (X d : ℕ → K) :
    ∑ v ∈ Finset.range M, polyGrad co mo X v * d v = ((mo.zip co).map (fun q => q.2 * lbz X d q.1)).sum := by
  obtain ⟨hv, l1, l2, e, hs⟩ := h
  subst e
  obtain ⟨v, w, G, h1, h2, h3, h4⟩ := evaluateGradient_spec hv (x := tab P.numVariables X) (X := X)
    (fun v hv => getElem?_tab_lt hv) l1 l2
  rw [← hs, ← h4]
  refine Finset.sum_congr rfl (fun i hi => ?_)
  congr 1
  have := h4 (fun w => if w = i then 1 else 0)
  rw [hs] at this
  have hi' := Finset.mem_range.mp hi
  simpa [polyGrad, hi'] using this.symm

theorem PolyIs.reach {M : ℕ} {co : List K} {mo : List (List ℕ)} {P P' : Poly K} (h : PolyIs M co mo P) (hr : Reach P P') :
    PolyIs M co mo P' := by
  obtain ⟨v, w, rfl, h1, h2⟩ := reach_like h.valid h.lv h.la hr
  exact ⟨h.valid.like v w, h1, h2, h.nv, fun F => h.sum F⟩

theorem PolyIs.mk? {srt : List (List (List ℕ)) → List (List (List ℕ))} (hs : SortFn srt) {nv : ℕ}
    {co : List K} {mo : List (List ℕ)} (hlen : co.length = mo.length) (hnd : mo.Nodup)
    (hne : ∀ m ∈ mo, m ≠ []) (hr : ∀ m ∈ mo, ∀ v ∈ m, v < nv) :
    ∃ P, Poly.mk? srt nv co mo = some P ∧ PolyIs nv co mo P := by
  obtain ⟨P, h1, h2⟩ := main_spec hs nv co mo hlen hnd hne hr
  obtain ⟨hv, l1, l2, e1, e2, e3, h3⟩ := h2 P .init
  exact ⟨P, h1, hv, l1, l2, e1, h3⟩

end Verif.Poly

namespace Verif.MACE
open Verif.Spec Verif.Poly

variable {K : Type} [Field K]

theorem dcopy_in {n aoff ainc : ℕ} {a x : List K} {f : ℕ → K} (ha : ∀ j < n, a[aoff + j * ainc]? = some (f j))
    (hx : x.length = n) : dcopy n a aoff ainc 0 1 x = some (tab n f) := by
  have : Wr n (dcopy n a aoff ainc 0 1) (fun p => ∃ j < n, p = j) f := by
    unfold dcopy
    refine Writes.loop (fun j hj => Writes.bindRead (ha j hj) ?_)
    have e : 0 + j * 1 = j := by omega
    rw [e]
    exact Wr.wr hj rfl
  exact this.tab_of_all (fun p hp => ⟨p, hp, rfl⟩) hx

theorem dcopy_out {n boff binc L : ℕ} {f val : ℕ → K} (hL : ∀ j < n, boff + j * binc < L)
    (hv : ∀ j < n, val (boff + j * binc) = f j) :
    Wr L (dcopy n (tab n f) 0 1 boff binc) (fun p => ∃ j < n, p = boff + j * binc) val := by
  unfold dcopy
  refine Writes.loop (fun j hj => Writes.bindRead (a := f j) ?_ (Wr.wr (hL j hj) (hv j hj)))
  rw [zero_add, mul_one, getElem?_tab_lt hj]

/-- The polynomial objects: `P` holds at every position. -/
def PolysAt (n : ℕ) (Q : ℕ → Poly K → Prop) (l : List (Poly K)) : Prop := ∀ j < n, ∃ p, l[j]? = some p ∧ Q j p

theorem PolysAt.set {n : ℕ} {Q : ℕ → Poly K → Prop} {l : List (Poly K)} (h : PolysAt n Q l) {j : ℕ} {p : Poly K} (hp : Q j p) :
    PolysAt n Q (l.set j p) := by
  intro j' hj'
  obtain ⟨p', h1, h2⟩ := h j' hj'
  have hlt := (List.getElem?_eq_some_iff.mp h1).1
  rw [List.getElem?_set]
  by_cases e : j = j'
  · subst e
    exact ⟨p, by simp [hlt], hp⟩
  · exact ⟨p', by rw [if_neg e, h1], h2⟩

/-- Invariant and observations of the state of `productStep`. -/
def PInv (Lo Lg n : ℕ) (Q : ℕ → Poly K → Prop) (st : List K × List K × List (Poly K)) : Prop :=
  st.1.length = Lo ∧ st.2.1.length = Lg ∧ PolysAt n Q st.2.2

def pRd (st : List K × List K × List (Poly K)) : ℕ ⊕ ℕ → Option K
  | .inl p => st.1[p]?
  | .inr p => st.2.1[p]?

def pVal (vo vg : ℕ → K) : ℕ ⊕ ℕ → K
  | .inl p => vo p
  | .inr p => vg p

theorem productStep_writes {P : Params K} {A : List K} {apos poly opos gpos Lo Lg n : ℕ} {Q : ℕ → Poly K → Prop} {X : ℕ → K}
    {co : List K} {mo : List (List ℕ)} {vo vg : ℕ → K} (hp : poly < n) (hQ : ∀ p, Q poly p ↔ PolyIs P.M co mo p)
    (hA : ∀ lm < P.M, A[apos + lm * P.C]? = some (X lm)) (ho : opos < Lo) (hvo : vo opos = polynomial co mo X)
    (hg : ∀ lm < P.M, gpos + lm * P.C < Lg) (hvg : ∀ lm < P.M, vg (gpos + lm * P.C) = polyGrad co mo X lm) :
    Writes (fun st : List K × _ => st.1.length = P.M ∧ PInv Lo Lg n Q st.2) (fun st => pRd st.2)
      (productStep P A apos poly opos gpos)
      (fun a => a = .inl opos ∨ ∃ lm < P.M, a = .inr (gpos + lm * P.C)) (pVal vo vg) := by
  rintro ⟨x, out, grad, polys⟩ ⟨hx, h1, h2, h3⟩
  dsimp only at hx h1 h2 h3
  obtain ⟨p, hp1, hp2⟩ := h3 poly hp
  obtain ⟨p', he, hp'⟩ := ((hQ p).mp hp2).eval (x := tab P.M X) (X := X) (fun v hv => getElem?_tab_lt hv)
  obtain ⟨out', w1, w2, w3⟩ := (Wr.wr (L := Lo) (val := vo) ho hvo) out h1
  obtain ⟨grad', g1, g2, g3⟩ := (dcopy_out (val := vg) (f := polyGrad co mo X) hg hvg) grad h2
  refine ⟨(tab P.M X, out', grad', polys.set poly p'), ?_, ⟨by simp, w2, g2, h3.set ((hQ p').mpr hp')⟩, ?_⟩
  · unfold productStep
    rw [dcopy_in hA hx]
    dsimp only [Option.bind_eq_bind, Option.bind_some]
    rw [hp1, Option.bind_some, he, Option.bind_some]
    dsimp only
    rw [show wr out opos (polynomial co mo X) = some out' from w1, Option.bind_some, g1, Option.bind_some]
    rfl
  · rintro (q | q)
    · constructor
      · rintro (h | ⟨_, _, h⟩)
        · exact (w3 q).1 (Sum.inl.inj h)
        · cases h
      · intro h
        exact (w3 q).2 (fun e => h (Or.inl (congrArg Sum.inl e)))
    · constructor
      · rintro (h | ⟨lm, hlm, h⟩)
        · cases h
        · exact (g3 q).1 ⟨lm, hlm, Sum.inr.inj h⟩
      · intro h
        exact (g3 q).2 (fun ⟨lm, hlm, e⟩ => h (Or.inr ⟨lm, hlm, congrArg Sum.inr e⟩))

/-- A fresh scratch vector per node. -/
theorem Writes.scratch {σ α V : Type} {I : σ → Prop} {rd : σ → α → Option V} {M : ℕ}
    {body : List K × σ → Option (List K × σ)} {S : α → Prop} {val : α → V}
    (h : Writes (fun st : List K × σ => st.1.length = M ∧ I st.2) (fun st => rd st.2) body S val) :
    Writes I rd (fun s => (body (List.replicate M 0, s)).bind (fun q => pure q.2)) S val := by
  intro s hs
  obtain ⟨s', h1, h2, h3⟩ := h (List.replicate M 0, s) ⟨by simp, hs⟩
  exact ⟨s'.2, by beta_reduce; rw [h1]; rfl, h2.2, h3⟩

variable {P : Params K} {W : Net K} {g : Graph K} {nT nP NH : ℕ} {c : Conf K} {n : ℕ → ℕ} {X : ℕ → ℕ → K} {R : ℕ → K}

/-- Objects of the first product. -/
def P0At (W : Net K) (j : ℕ) (p : Poly K) : Prop :=
  PolyIs W.M (W.coef0 (j / W.C / W.LM) (j / W.C % W.LM) (j % W.C)) (W.mono0 (j / W.C % W.LM)) p

def P0Ok (W : Net K) (nT : ℕ) (l : List (Poly K)) : Prop := PolysAt (nT * W.LM * W.C) (P0At W) l

/-- Objects of the second product. -/
def P1At (W : Net K) (j : ℕ) (p : Poly K) : Prop := PolyIs W.M (W.coef1 (j / W.C) (j % W.C)) W.mono1 p

def P1Ok (W : Net K) (nT : ℕ) (l : List (Poly K)) : Prop := PolysAt (nT * W.C) (P1At W) l

/-- Gradient of the first product at features `a`. -/
def g0 (W : Net K) (c : Conf K) (a : ℕ → ℕ → ℕ → K) (i LM lm k : ℕ) : K :=
  polyGrad (W.coef0 (c.typ i) LM k) (W.mono0 LM) (fun lm => a i lm k) lm

def g1 (W : Net K) (c : Conf K) (a : ℕ → ℕ → ℕ → K) (i lm k : ℕ) : K :=
  polyGrad (W.coef1 (c.typ i) k) W.mono1 (fun lm => a i lm k) lm

theorem computeM0_spec (hw : WOk P W nT nP) (hg : GOk g nT NH c n X R) {s : State K} {a : ℕ → ℕ → ℕ → K}
    (hA : s.A0 = T3 g.N W.M W.C a) (hP : P0Ok W nT s.P0) :
    ∃ G P0', computeM0 P g s = some { s with
        M0 := T3 g.N W.LM W.C (fun i LM k => polynomial (W.coef0 (c.typ i) LM k) (W.mono0 LM) (fun lm => a i lm k))
        M0g := G, P0 := P0' } ∧ P0Ok W nT P0' ∧
      ∀ i < g.N, ∀ LM < W.LM, ∀ lm < W.M, ∀ k < W.C,
        G[((i * W.LM + LM) * W.M + lm) * W.C + k]? = some (g0 W c a i LM lm k) := by
  have key : Writes (PInv (g.N * W.LM * W.C) (g.N * W.C * W.LM * W.M) (nT * W.LM * W.C) (P0At W)) pRd
      (loop g.N (fun i (st : List K × List K × List (Poly.Poly K)) =>
        (loop P.LM (fun lm => cnt P.C (fun k lmk st => (g.types[i]?).bind (fun ti =>
          productStep P s.A0 (i * P.M * P.C + k) (ti * P.LM * P.C + lmk) (i * P.LM * P.C + lmk)
            (i * P.LM * P.C * P.M + (lm * P.M * P.C + k)) st))) (0, List.replicate P.M 0, st)).bind (fun q => pure q.2.2)))
      (fun q => ∃ i < g.N, ∃ LM < W.LM, ∃ k < W.C, q = .inl ((i * W.LM + LM) * W.C + k) ∨
        ∃ lm < P.M, q = .inr (i * P.LM * P.C * P.M + (LM * P.M * P.C + k) + lm * P.C))
      (pVal (dec3 W.LM W.C (fun i LM k => polynomial (W.coef0 (c.typ i) LM k) (W.mono0 LM) (fun lm => a i lm k)))
        (fun p => g0 W c a (p / W.C / W.M / W.LM) (p / W.C / W.M % W.LM) (p / W.C % W.M) (p % W.C))) := by
    refine Writes.loop (fun i hi => ?_)
    have hstep : Writes (fun st : List K × _ => st.1.length = P.M ∧
        PInv (g.N * W.LM * W.C) (g.N * W.C * W.LM * W.M) (nT * W.LM * W.C) (P0At W) st.2) (fun st => pRd st.2)
        (loop W.LM (fun LM => loop W.C (fun k st => (g.types[i]?).bind (fun ti =>
          productStep P s.A0 (i * P.M * P.C + k) (ti * P.LM * P.C + (LM * W.C + k)) (i * P.LM * P.C + (LM * W.C + k))
            (i * P.LM * P.C * P.M + (LM * P.M * P.C + k)) st))))
        (fun q => ∃ LM < W.LM, ∃ k < W.C, q = .inl ((i * W.LM + LM) * W.C + k) ∨
          ∃ lm < P.M, q = .inr (i * P.LM * P.C * P.M + (LM * P.M * P.C + k) + lm * P.C))
        (pVal (dec3 W.LM W.C (fun i LM k => polynomial (W.coef0 (c.typ i) LM k) (W.mono0 LM) (fun lm => a i lm k)))
          (fun p => g0 W c a (p / W.C / W.M / W.LM) (p / W.C / W.M % W.LM) (p / W.C % W.M) (p % W.C))) := by
      refine Writes.loop (fun LM hLM => Writes.loop (fun k hk => Writes.bindRead (hg.types i hi) ?_))
      have e1 : c.typ i * P.LM * P.C + (LM * W.C + k) = (c.typ i * W.LM + LM) * W.C + k := by rw [hw.LM, hw.C]; ring
      have e2 : i * P.LM * P.C + (LM * W.C + k) = (i * W.LM + LM) * W.C + k := by rw [hw.LM, hw.C]; ring
      have e3 : ∀ lm, i * P.LM * P.C * P.M + (LM * P.M * P.C + k) + lm * P.C = ((i * W.LM + LM) * W.M + lm) * W.C + k := by
        intro lm; rw [hw.LM, hw.C, hw.M]; ring
      rw [e1, e2]
      refine productStep_writes (co := W.coef0 (c.typ i) LM k) (mo := W.mono0 LM) (X := fun lm => a i lm k)
        (flat3_lt (hg.typ_lt i hi) hLM hk) ?_ ?_ (flat3_lt hi hLM hk) (dec3_flat _ hLM hk) ?_ ?_
      · intro p
        unfold P0At
        rw [flat_div hk, flat_mod hk, flat_div hLM, flat_mod hLM, hw.M]
      · intro lm hlm
        rw [hw.M] at hlm
        have : i * P.M * P.C + k + lm * P.C = (i * W.M + lm) * W.C + k := by rw [hw.M, hw.C]; ring
        rw [this, hA]
        exact T3_get a hi hlm hk
      · intro lm hlm
        rw [hw.M] at hlm
        rw [e3]
        have := flat_lt (flat3_lt hi hLM hlm) hk
        calc _ < g.N * W.LM * W.M * W.C := this
          _ = _ := by ring
      · intro lm hlm
        rw [hw.M] at hlm
        rw [e3, flat_div hk, flat_mod hk, flat_div hlm, flat_mod hlm, flat_div hLM, flat_mod hLM]
        rfl
    refine Writes.of_eq (Writes.scratch hstep) (fun st _ => ?_)
    rw [hw.LM, hw.C]
    rw [loop_ctr (n := W.LM) (c0 := 0) (d := fun _ => W.C) (B := fun LM => loop W.C (fun k st => (g.types[i]?).bind (fun ti =>
          productStep P s.A0 (i * P.M * W.C + k) (ti * W.LM * W.C + (LM * W.C + k)) (i * W.LM * W.C + (LM * W.C + k))
            (i * W.LM * W.C * P.M + (LM * P.M * W.C + k)) st)))]
    · rw [Option.bind_map]; rfl
    · intro LM hLM st
      rw [cnt_eq]
      simp only [Finset.sum_const, Finset.card_range, smul_eq_mul, zero_add, Nat.succ_mul]
  obtain ⟨st', h1, ⟨h2, h3, h4⟩, h5⟩ := key (resize s.M0 (g.N * W.LM * W.C), resize s.M0g (g.N * W.C * W.LM * W.M), s.P0)
    ⟨by simp, by simp, hP⟩
  refine ⟨st'.2.1, st'.2.2, ?_, h4, ?_⟩
  · unfold computeM0
    have h1' := h1
    have e : st'.1 = T3 g.N W.LM W.C (fun i LM k =>
        polynomial (W.coef0 (c.typ i) LM k) (W.mono0 LM) (fun lm => a i lm k)) := by
      apply eq_T3 h2
      intro i hi LM hLM k hk
      have := (h5 (.inl ((i * W.LM + LM) * W.C + k))).1 ⟨i, hi, LM, hLM, k, hk, Or.inl rfl⟩
      refine Eq.trans this ?_
      unfold pVal
      exact congrArg some (dec3_flat _ hLM hk)
    rw [← e]
    have h6 : resize s.M0 (g.N * P.LM * P.C) = resize s.M0 (g.N * W.LM * W.C) := by rw [hw.LM, hw.C]
    have h7 : resize s.M0g (g.N * P.C * P.LM * P.M) = resize s.M0g (g.N * W.C * W.LM * W.M) := by rw [hw.LM, hw.C, hw.M]
    rw [h6, h7]
    exact (bind_of_some h1' _).trans rfl
  · intro i hi LM hLM lm hlm k hk
    have := (h5 (.inr (i * P.LM * P.C * P.M + (LM * P.M * P.C + k) + lm * P.C))).1
      ⟨i, hi, LM, hLM, k, hk, Or.inr ⟨lm, by rw [hw.M]; exact hlm, rfl⟩⟩
    have e3 : i * P.LM * P.C * P.M + (LM * P.M * P.C + k) + lm * P.C = ((i * W.LM + LM) * W.M + lm) * W.C + k := by
      rw [hw.LM, hw.C, hw.M]; ring
    rw [e3] at this
    refine Eq.trans this ?_
    unfold pVal
    dsimp only
    rw [flat_div hk, flat_mod hk, flat_div hlm, flat_mod hlm, flat_div hLM, flat_mod hLM]

theorem computeM1_spec (hw : WOk P W nT nP) (hg : GOk g nT NH c n X R) {s : State K} {a : ℕ → ℕ → ℕ → K}
    (hA : s.A1 = T3 g.N W.M W.C a) (hP : P1Ok W nT s.P1) :
    ∃ G P1', computeM1 P g s = some { s with
        M1 := tab2 g.N W.C (fun i k => polynomial (W.coef1 (c.typ i) k) W.mono1 (fun lm => a i lm k))
        M1g := G, P1 := P1' } ∧ P1Ok W nT P1' ∧
      ∀ i < g.N, ∀ lm < W.M, ∀ k < W.C, G[(i * W.M + lm) * W.C + k]? = some (g1 W c a i lm k) := by
  have key : Writes (PInv (g.N * W.C) (g.N * W.C * W.M * W.C) (nT * W.C) (P1At W)) pRd
      (loop g.N (fun i (st : List K × List K × List (Poly.Poly K)) =>
        (loop P.C (fun k st => (g.types[i]?).bind (fun ti =>
          productStep P s.A1 (i * P.M * P.C + k) (ti * P.C + k) (i * P.C + k) (i * P.C * P.M + k) st))
          (List.replicate P.M 0, st)).bind (fun q => pure q.2)))
      (fun q => ∃ i < g.N, ∃ k < P.C, q = .inl (i * P.C + k) ∨ ∃ lm < P.M, q = .inr (i * P.C * P.M + k + lm * P.C))
      (pVal (fun p => polynomial (W.coef1 (c.typ (p / W.C)) (p % W.C)) W.mono1 (fun lm => a (p / W.C) lm (p % W.C)))
        (dec3 W.M W.C (g1 W c a))) := by
    refine Writes.loop (fun i hi => Writes.scratch (Writes.loop (fun k hk => Writes.bindRead (hg.types i hi) ?_)))
    rw [hw.C] at hk
    have e1 : c.typ i * P.C + k = c.typ i * W.C + k := by rw [hw.C]
    have e2 : i * P.C + k = i * W.C + k := by rw [hw.C]
    have e3 : ∀ lm, i * P.C * P.M + k + lm * P.C = (i * W.M + lm) * W.C + k := by
      intro lm; rw [hw.C, hw.M]; ring
    rw [e1, e2]
    refine productStep_writes (co := W.coef1 (c.typ i) k) (mo := W.mono1) (X := fun lm => a i lm k)
      (flat_lt (hg.typ_lt i hi) hk) ?_ ?_ (flat_lt hi hk) ?_ ?_ ?_
    · intro p
      unfold P1At
      rw [flat_div hk, flat_mod hk, hw.M]
    · intro lm hlm
      rw [hw.M] at hlm
      have : i * P.M * P.C + k + lm * P.C = (i * W.M + lm) * W.C + k := by rw [hw.M, hw.C]; ring
      rw [this, hA]
      exact T3_get a hi hlm hk
    · rw [flat_div hk, flat_mod hk]
    · intro lm hlm
      rw [hw.M] at hlm
      rw [e3]
      have h1 := flat3_lt hi hlm hk
      have hC : 0 < W.C := by omega
      calc _ < g.N * W.M * W.C := h1
        _ ≤ g.N * W.M * W.C * W.C := Nat.le_mul_of_pos_right _ hC
        _ = _ := by ring
    · intro lm hlm
      rw [hw.M] at hlm
      rw [e3, dec3_flat _ hlm hk]
      rfl
  obtain ⟨st', h1, ⟨h2, h3, h4⟩, h5⟩ := key (resize s.M1 (g.N * W.C), resize s.M1g (g.N * W.C * W.M * W.C), s.P1)
    ⟨by simp, by simp, hP⟩
  refine ⟨st'.2.1, st'.2.2, ?_, h4, ?_⟩
  · unfold computeM1
    have e : st'.1 = tab2 g.N W.C (fun i k => polynomial (W.coef1 (c.typ i) k) W.mono1 (fun lm => a i lm k)) := by
      rw [eq_tab2_iff]
      refine ⟨h2, fun i hi k hk => ?_⟩
      have := (h5 (.inl (i * P.C + k))).1 ⟨i, hi, k, by rw [hw.C]; exact hk, Or.inl rfl⟩
      rw [hw.C] at this
      refine Eq.trans this ?_
      unfold pVal
      dsimp only
      rw [flat_div hk, flat_mod hk]
    rw [← e]
    have h6 : resize s.M1 (g.N * P.C) = resize s.M1 (g.N * W.C) := by rw [hw.C]
    have h7 : resize s.M1g (g.N * P.C * P.M * P.C) = resize s.M1g (g.N * W.C * W.M * W.C) := by rw [hw.C, hw.M]
    rw [h6, h7]
    exact (bind_of_some h1 _).trans rfl
  · intro i hi lm hlm k hk
    have := (h5 (.inr (i * P.C * P.M + k + lm * P.C))).1
      ⟨i, hi, k, by rw [hw.C]; exact hk, Or.inr ⟨lm, by rw [hw.M]; exact hlm, rfl⟩⟩
    have e3 : i * P.C * P.M + k + lm * P.C = (i * W.M + lm) * W.C + k := by rw [hw.C, hw.M]; ring
    rw [e3] at this
    refine Eq.trans this ?_
    unfold pVal
    exact congrArg some (dec3_flat _ hlm hk)

end Verif.MACE
