import Verif.Lemmas.MACE.Basic
import Verif.Spec.MACE

/-! # What the stages assume about parameters and arguments -/

namespace Verif.MACE
open Verif.Spec Verif.Blas

variable {K : Type} [Field K]

/-- Number of edges. -/
abbrev Graph.E (g : Graph K) : ℕ := off g.nn g.N

/-- Number of edges in the arrays; exceeds `E` when only the first nodes are processed. -/
abbrev Graph.Ex (g : Graph K) : ℕ := g.r.length

/-- The arguments describe configuration `c` with bond vectors `X`, lengths `R`; types are below `nT`, neighbour
indices below `NH`. -/
structure GOk (g : Graph K) (nT NH : ℕ) (c : Conf K) (n : ℕ → ℕ) (X : ℕ → ℕ → K) (R : ℕ → K) : Prop where
  types : ∀ i < g.N, g.types[i]? = some (c.typ i)
  typ_lt : ∀ i < g.N, c.typ i < nT
  nn : ∀ i < g.N, g.nn[i]? = some (n i)
  edg : ∀ i < g.N, c.edg i = edges g.nn i
  idx : ∀ e < g.E, g.idx[e]? = some (c.nbr e)
  nbr_lt : ∀ e < g.E, c.nbr e < NH
  ntypes : ∀ e < g.E, g.ntypes[e]? = some (c.nty e)
  nty_lt : ∀ e < g.E, c.nty e < nT
  le : g.E ≤ g.Ex
  xyz : g.xyz = tab2 g.Ex 3 X
  r : ∀ e < g.Ex, g.r[e]? = some (R e)

/-- The parameters contain the weights of `W` for `nT` types and `nP` paths. -/
structure WOk (P : Params K) (W : Net K) (nT nP : ℕ) : Prop where
  C : P.C = W.C
  lmax : P.lmax = W.lmax
  Lmax : P.Lmax = W.Lmax
  H0w : ∀ t < nT, ∀ k < W.C, P.H0w[t * W.C + k]? = some (W.emb t k)
  A0w : ∀ t < nT, ∃ Wt, P.A0w[t]? = some Wt ∧ ∀ l < W.lmax + 1, ∃ w, Wt[l]? = some w ∧
    ∀ k' < W.C, ∀ k < W.C, w[k' * W.C + k]? = some (W.mix0 t l k' k)
  H1w : ∀ l < W.Lmax + 1, ∀ k' < W.C, ∀ k < W.C, P.H1w[l * W.C * W.C + (k' * W.C + k)]? = some (W.lin1 l k' k)
  triple : ∀ {σ : Type} (body : ℕ → ℕ → ℕ → ℕ → σ → Option σ) (s : σ),
    tripleLoop P body s = loop W.nQ (fun q => body (W.qp q) (W.q1 q) (W.q2 q) q) s
  qp_lt : ∀ q < W.nQ, W.qp q < nP
  q1_lt : ∀ q < W.nQ, W.q1 q < W.M
  q2_lt : ∀ q < W.nQ, W.q2 q < W.LM
  nQ : P.numLelm = W.nQ
  nOut : P.numLme = W.nOut
  nOut' : sumLme P.phil = W.nOut
  numE : numE P = some (tab (W.lmax + 1) W.nE)
  ncg : P.cg.length = W.nCG
  cgOut : ∀ p < W.nCG, P.philme[p]? = some (W.cgOut p)
  cgOut_lt : ∀ p < W.nCG, W.cgOut p < W.nOut
  cgIn : ∀ p < W.nCG, P.philelm[p]? = some (W.cgIn p)
  cgIn_lt : ∀ p < W.nCG, W.cgIn p < W.nQ
  cgC : ∀ p < W.nCG, P.cg[p]? = some (W.cgC p)
  A1w : ∀ l < W.lmax + 1, ∃ w, P.A1w[l]? = some w ∧
    ∀ e < W.nE l, ∀ k' < W.C, ∀ k < W.C, w[(e * W.C + k') * W.C + k]? = some (W.mix1 l e k' k)
  H2wH1 : ∀ t < nT, ∃ w, P.H2wH1[t]? = some w ∧ ∀ k' < W.C, ∀ k < W.C, w[k' * W.C + k]? = some (W.lin2h t k' k)
  H2wM1 : ∀ k' < W.C, ∀ k < W.C, P.H2wM1[k' * W.C + k]? = some (W.lin2m k' k)
  atomE : ∀ t < nT, P.atomicEnergies[t]? = some (W.atomE t)
  ro1 : ∀ k < W.C, P.ro1[k]? = some (W.read1 k)
  spl1 : ∃ s0, P.splSet1[0]? = some s0 ∧ s0.num_splines = nP * W.C

variable {P : Params K} {W : Net K} {g : Graph K} {nT nP NH : ℕ} {c : Conf K} {n : ℕ → ℕ} {X : ℕ → ℕ → K} {R : ℕ → K}

theorem WOk.M (hw : WOk P W nT nP) : P.M = W.M := by unfold Params.M Net.M; rw [hw.lmax]

theorem WOk.LM (hw : WOk P W nT nP) : P.LM = W.LM := by unfold Params.LM Net.LM; rw [hw.Lmax]

theorem GOk.xyz_get (hg : GOk g nT NH c n X R) {e a : ℕ} (he : e < g.E) (ha : a < 3) : g.xyz[e * 3 + a]? = some (X e a) := by
  rw [hg.xyz, getElem?_tab2 (he.trans_le hg.le) ha]

theorem GOk.xyz_get' (hg : GOk g nT NH c n X R) {e a : ℕ} (he : e < g.E) (ha : a < 3) :
    g.xyz[3 * e + a]? = some (X e a) := by rw [mul_comm 3, hg.xyz_get he ha]

theorem GOk.r_get (hg : GOk g nT NH c n X R) {e : ℕ} (he : e < g.E) : g.r[e]? = some (R e) := hg.r e (he.trans_le hg.le)

theorem GOk.xyz_len (hg : GOk g nT NH c n X R) : g.xyz.length = g.Ex * 3 := by rw [hg.xyz]; simp

theorem GOk.ltx (hg : GOk g nT NH c n X R) {e : ℕ} (he : e < g.E) : e < g.Ex := he.trans_le hg.le

/-- The first `E` rows of a buffer with `A*C` entries per edge. -/
def Rows (g : Graph K) (A C : ℕ) (b : List K) (f : ℕ → ℕ → ℕ → K) : Prop :=
  ∀ e < g.E, ∀ p < A, ∀ k < C, b[(e * A + p) * C + k]? = some (f e p k)

theorem GOk.lt (_ : GOk g nT NH c n X R) {i e : ℕ} (hi : i < g.N) (he : e ∈ edges g.nn i) : e < g.E := edges_lt hi he

end Verif.MACE

namespace Verif

section rules
variable {K : Type} {α : Type}

theorem Adds.bindRead [AddCommMonoid K] {L : ℕ} {o : Option α} {a : α} (h : o = some a)
    {f : α → List K → Option (List K)} {d : ℕ → K} (hf : Adds L (f a) d) : Adds L (fun b => o.bind (fun x => f x b)) d := by
  subst h; exact hf

theorem Writes.bindRead {σ β : Type} {I : σ → Prop} {rd : σ → β → Option K} {o : Option α} {a : α} (h : o = some a)
    {f : α → σ → Option σ} {S : β → Prop} {val : β → K} (hf : Writes I rd (f a) S val) :
    Writes I rd (fun b => o.bind (fun x => f x b)) S val := by
  subst h; exact hf

theorem sum_flat_single [AddCommMonoid K] {A C p : ℕ} (hp : p < A * C) (f : ℕ → ℕ → K) :
    ∑ a ∈ Finset.range A, ∑ k ∈ Finset.range C, (if p = a * C + k then f a k else 0) = f (p / C) (p % C) := by
  obtain ⟨a, k, ha, hk, rfl⟩ := flat_decomp hp
  rw [flat_div hk, flat_mod hk, Finset.sum_eq_single a, Finset.sum_eq_single k]
  · simp
  · intro k' hk' hne
    rw [if_neg]
    rw [flat_inj hk (Finset.mem_range.mp hk')]
    rintro ⟨_, rfl⟩; exact hne rfl
  · intro h; exact absurd (Finset.mem_range.mpr hk) h
  · intro a' ha' hne
    refine Finset.sum_eq_zero (fun k' hk' => ?_)
    rw [if_neg]
    rw [flat_inj hk (Finset.mem_range.mp hk')]
    rintro ⟨rfl, _⟩; exact hne rfl
  · intro h; exact absurd (Finset.mem_range.mpr ha) h

/-- Contribution to cell `(i0, j0, k0)` of accumulating at `(i, j, k)` for all `k`. -/
theorem sum_row_single [AddCommMonoid K] {n2 C i j i0 j0 k0 : ℕ} (hj : j < n2) (hj0 : j0 < n2) (hk0 : k0 < C) (f : ℕ → K) :
    ∑ k ∈ Finset.range C, (if (i0 * n2 + j0) * C + k0 = (i * n2 + j) * C + k then f k else 0)
      = if i0 = i ∧ j0 = j then f k0 else 0 := by
  rw [Finset.sum_eq_single k0]
  · simp only [flat3_inj hj0 hk0 hj hk0, and_true]
  · intro k' hk' hne
    rw [if_neg]
    rw [flat3_inj hj0 hk0 hj (Finset.mem_range.mp hk')]
    rintro ⟨_, _, rfl⟩; exact hne rfl
  · intro h; exact absurd (Finset.mem_range.mpr hk0) h

end rules

end Verif
