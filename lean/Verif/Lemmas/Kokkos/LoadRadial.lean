import Verif.Lemmas.Kokkos.HostSeq
import Verif.Lemmas.CubicSpline
import Verif.Lemmas.MACE.LoadBase

/-! # The spline tables of the Kokkos evaluator -/

namespace Verif.Kokkos
open Verif.MACE Verif.Spline

variable {K : Type} [Field K]

/-- Coefficient `s` of the cubic. -/
def cub (h v d v' d' : K) (s : ℕ) : K :=
  if s = 0 then v else if s = 1 then d else if s = 2 then herm2 h v d v' d' else herm3 h v d v' d'

/-- The four cells of function `j` in interval `i`. -/
def Q4 (a i j : ℕ) : Set (List ℕ) := {[a, i, 0, j]} ∪ ({[a, i, 1, j]} ∪ ({[a, i, 2, j]} ∪ {[a, i, 3, j]}))

theorem mem_Q4 {a i j : ℕ} {c : List ℕ} : c ∈ Q4 a i j ↔ ∃ s < 4, c = [a, i, s, j] := by
  unfold Q4
  simp only [Set.mem_union, Set.mem_singleton_iff]
  constructor
  · rintro (h | h | h | h)
    · exact ⟨0, by omega, h⟩
    · exact ⟨1, by omega, h⟩
    · exact ⟨2, by omega, h⟩
    · exact ⟨3, by omega, h⟩
  · rintro ⟨s, hs, h⟩
    obtain rfl | rfl | rfl | rfl : s = 0 ∨ s = 1 ∨ s = 2 ∨ s = 3 := by omega
    all_goals simp [h]

theorem cubicCells_tr {nA nI S a i j : ℕ} (ha : a < nA) (hi : i < nI) (hj : j < S) {h : K} {value deriv : ℕ → Option K}
    {v d : ℕ → K} (hv : value i = some (v i)) (hv' : value (i + 1) = some (v (i + 1))) (hd : deriv i = some (d i))
    (hd' : deriv (i + 1) = some (d (i + 1))) {f g : List ℕ → K}
    (hg : ∀ s < 4, g [a, i, s, j] = cub h (v i) (d i) (v (i + 1)) (d (i + 1)) s) :
    Tr [nA, nI, 4, S] (cubicCells h value deriv a i j) (Q4 a i j) f g := by
  unfold cubicCells Q4
  simp only [Option.bind_eq_bind]
  refine Tr.opt hv (Tr.disj (Tr.set (flat_four ha hi (by omega) hj) ?_) ?_ (by simp))
  · rw [hg 0 (by omega)]; rfl
  refine Tr.opt hd (Tr.disj (Tr.set (flat_four ha hi (by omega) hj) ?_) ?_ (by simp))
  · rw [hg 1 (by omega)]; rfl
  refine Tr.opt hv' (Tr.opt hd' (Tr.disj (Tr.set (flat_four ha hi (by omega) hj) ?_) ?_ (by simp)))
  · rw [hg 2 (by omega)]; rfl
  refine Tr.set (flat_four ha hi (by omega) hj) ?_
  rw [hg 3 (by omega)]; rfl

theorem disj_cells {T T' : Set (List ℕ)} (h : ∀ c, c ∈ T → c ∈ T' → False) : Disjoint T T' := Set.disjoint_left.mpr h

theorem mem_un {n : ℕ} {T : ℕ → Set (List ℕ)} {c : List ℕ} : c ∈ un n T ↔ ∃ i < n, c ∈ T i := Iff.rfl

/-- The file tables have the expected shape: `vals[a][j]`, `ders[a][j]` contain `v a j i`, `d a j i` for `i < n`. -/
def TabOk (nA S n : ℕ) (vals ders : List (List (List K))) (v d : ℕ → ℕ → ℕ → K) : Prop :=
  ∀ a < nA, ∃ t t', vals[a]? = some t ∧ ders[a]? = some t' ∧ ∀ j < S, ∃ w w', t[j]? = some w ∧ t'[j]? = some w' ∧
    ∀ i < n, w[i]? = some (v a j i) ∧ w'[i]? = some (d a j i)

/-- Content of a coefficient table. -/
def CoefOk (co : View K) (nA nI S : ℕ) (φ : ℕ → ℕ → ℕ → ℕ → K) : Prop :=
  ∀ a < nA, ∀ i < nI, ∀ s < 4, ∀ j < S, co.get [a, i, s, j] = some (φ a i s j)

theorem radialSet_mk {h : K} {vals ders : List (List (List K))} {S n : ℕ} {v d : ℕ → ℕ → ℕ → K} {t0 : List (List K)} {t00 : List K}
    (h0 : vals[0]? = some t0) (h00 : t0[0]? = some t00) (hS : t0.length = S) (hn : t00.length = n) (hn0 : 0 < n)
    (ht : TabOk vals.length S n vals ders v d) :
    ∃ s, RadialSet.mk? h vals ders = some s ∧ s.h = h ∧ s.numTypes = vals.length ∧ s.numFun = S ∧
      CoefOk s.c vals.length (n - 1) S (fun a i s j => cub h (v a j i) (d a j i) (v a j (i + 1)) (d a j (i + 1)) s) := by
  have hloop : ∀ f, Tr [vals.length, n - 1, 4, S] (Verif.loop vals.length (fun a => Verif.loop (n - 1) (fun i => Verif.loop S (fun j =>
      cubicCells h (fun i => ((vals[a]?).bind (fun t => t[j]?)).bind (fun w => w[i]?))
        (fun i => ((ders[a]?).bind (fun t => t[j]?)).bind (fun w => w[i]?)) a i j))))
      (un vals.length fun a => un (n - 1) fun i => un S fun j => Q4 a i j) f
      (d4 fun a i s j => cub h (v a j i) (d a j i) (v a j (i + 1)) (d a j (i + 1)) s) := by
    intro f
    refine Tr.loop (fun a ha => Tr.loop (fun i hi => Tr.loop (fun j hj => ?_) ?_) ?_) ?_
    · obtain ⟨t, t', e1, e2, h1⟩ := ht a ha
      obtain ⟨w, w', e3, e4, h2⟩ := h1 j hj
      refine cubicCells_tr ha hi hj (v := v a j) (d := d a j) ?_ ?_ ?_ ?_ (fun s hs => rfl)
      · rw [e1, Option.bind_some, e3]; exact (h2 i (by omega)).1
      · rw [e1, Option.bind_some, e3]; exact (h2 (i + 1) (by omega)).1
      · rw [e2, Option.bind_some, e4]; exact (h2 i (by omega)).2
      · rw [e2, Option.bind_some, e4]; exact (h2 (i + 1) (by omega)).2
    all_goals
      intro x _ y _ hxy
      refine disj_cells (fun c => ?_)
      simp only [mem_un, mem_Q4]
      grind
  obtain ⟨c, k1, -, -, k4⟩ := Tr.run hloop (v := View.new [vals.length, n - 1, 4, S] 0) rfl (View.new_ok _ _) (by
    rintro c ⟨a, ha, i, hi, j, hj, hc⟩
    obtain ⟨s, hs, rfl⟩ := mem_Q4.mp hc
    exact ⟨_, flat_four ha hi hs hj⟩)
  refine ⟨{ h := h, numTypes := vals.length, numFun := S, c := c }, ?_, rfl, rfl, rfl, fun a ha i hi s hs j hj => ?_⟩
  · unfold RadialSet.mk?
    rw [h0]
    simp only [Option.bind_eq_bind, Option.bind_some]
    rw [h00, Option.bind_some, less1, if_neg (by omega), Option.bind_some, hS, hn, k1]
    rfl
  · exact k4 _ ⟨a, ha, i, hi, j, hj, mem_Q4.mpr ⟨s, hs, rfl⟩⟩

/-! ## First layer -/

section R0
variable {C lmax nT nI ab : ℕ}

/-- Cells of pair `ab`. -/
def PC (nI S ab : ℕ) : Set (List ℕ) := un nI fun i => un S fun j => Q4 ab i j

theorem PC_eq (nI L C ab : ℕ) (hC : 0 < C) : PC nI (L * C) ab = un nI fun i => un L fun l => un C fun k => Q4 ab i (l * C + k) := by
  ext c
  simp only [PC, mem_un]
  constructor
  · rintro ⟨i, hi, j, hj, h⟩
    obtain ⟨l, k, hl, hk, rfl⟩ := flat_decomp hj
    exact ⟨i, hi, l, hl, k, hk, h⟩
  · rintro ⟨i, hi, l, hl, k, hk, h⟩
    exact ⟨i, hi, _, flat_lt hl hk, h⟩

theorem R0values_tr {S nA : ℕ} (hab : ab < nA) {h : K} {values derivs : List (List K)} {v d : ℕ → ℕ → K}
    (ht : ∀ j < S, ∃ w w', values[j]? = some w ∧ derivs[j]? = some w' ∧ ∀ i < nI + 1, w[i]? = some (v j i) ∧ w'[i]? = some (d j i))
    {f g : List ℕ → K} (hg : ∀ i < nI, ∀ s < 4, ∀ j < S, g [ab, i, s, j] = cub h (v j i) (d j i) (v j (i + 1)) (d j (i + 1)) s) :
    Tr [nA, nI, 4, S] (R0values h values derivs nI S ab) (PC nI S ab) f g := by
  refine Tr.loop (fun i hi => Tr.loop (fun j hj => ?_) ?_) ?_
  · obtain ⟨w, w', e3, e4, h2⟩ := ht j hj
    refine cubicCells_tr hab hi hj (v := v j) (d := d j) ?_ ?_ ?_ ?_ (fun s hs => hg i hi s hs j hj)
    · rw [e3]; exact (h2 i (by omega)).1
    · rw [e3]; exact (h2 (i + 1) (by omega)).1
    · rw [e4]; exact (h2 i (by omega)).2
    · rw [e4]; exact (h2 (i + 1) (by omega)).2
  all_goals
    intro x _ y _ hxy
    refine disj_cells (fun c => ?_)
    simp only [mem_un, mem_Q4]
    grind

theorem R0embed_tr {S nA b : ℕ} (hab : ab < nA) {H0w : List K} {e : ℕ → K} (hC : 0 < C) (hH : ∀ k < C, H0w[b * C + k]? = some (e k))
    {f g : List ℕ → K} (hg : ∀ i < nI, ∀ s < 4, ∀ j < S, g [ab, i, s, j] = f [ab, i, s, j] * e (j % C)) :
    Tr [nA, nI, 4, S] (R0embed C H0w nI S ab b) (PC nI S ab) f g := by
  refine Tr.loop (fun i hi => Tr.loop (fun j hj => ?_) ?_) ?_
  · simp only [Option.bind_eq_bind]
    refine Tr.opt (hH (j % C) (Nat.mod_lt _ hC)) ?_
    refine Tr.disj (Tr.md (flat_four hab hi (by omega) hj) (hg i hi 0 (by omega) j hj)) ?_ (by simp)
    refine Tr.disj (Tr.md (flat_four hab hi (by omega) hj) (hg i hi 1 (by omega) j hj)) ?_ (by simp)
    refine Tr.disj (Tr.md (flat_four hab hi (by omega) hj) (hg i hi 2 (by omega) j hj)) ?_ (by simp)
    exact Tr.md (flat_four hab hi (by omega) hj) (hg i hi 3 (by omega) j hj)
  all_goals
    intro x _ y _ hxy
    refine disj_cells (fun c => ?_)
    simp only [mem_un, mem_Q4]
    grind

theorem copyRow_eq {v : View K} {i s first n : ℕ} {x : ℕ → K} (h : ∀ k < n, v.get [ab, i, s, first + k] = some (x k)) :
    copyRow v ab i s first n = some (tab n x) := by
  obtain ⟨l, h1, h2, h3⟩ := pushLoop_spec (Q := fun k a => a = x k) (fun k hk => ⟨x k, h k hk, rfl⟩) []
  unfold copyRow
  rw [h1, List.nil_append, Option.some.injEq, eq_tab_iff]
  refine ⟨h2, fun k hk => ?_⟩
  obtain ⟨a, e, rfl⟩ := h3 k hk
  exact e

theorem R0mix_tr {nA a : ℕ} (hab : ab < nA) (hC : 0 < C) {A0w : List (List (List K))} {m : ℕ → ℕ → ℕ → K}
    (hA : ∀ l < lmax + 1, ∀ k' < C, ∀ k < C, ((A0w[a]?).bind (fun t => t[l]?)).bind (fun t => t[k' * C + k]?) = some (m l k' k))
    {f g : List ℕ → K} (hg : ∀ i < nI, ∀ s < 4, ∀ l < lmax + 1, ∀ k < C,
      g [ab, i, s, l * C + k] = ∑ k' ∈ Finset.range C, m l k' k * f [ab, i, s, l * C + k']) :
    Tr [nA, nI, 4, (lmax + 1) * C] (R0mix C lmax A0w nI a ab) (PC nI ((lmax + 1) * C) ab) f g := by
  rw [PC_eq _ _ _ _ hC]
  refine Tr.loop (fun i hi => Tr.loop (fun l hl => ?_) ?_) ?_
  · simp only [Option.bind_eq_bind]
    have hrow : ∀ s < 4, ∀ v : View K, (∀ c ∈ un C fun k => Q4 ab i (l * C + k), v.get c = some (f c)) →
        copyRow v ab i s (l * C) C = some (tab C fun k => f [ab, i, s, l * C + k]) := by
      intro s hs v hv
      exact copyRow_eq (fun k hk => hv _ ⟨k, hk, mem_Q4.mpr ⟨s, hs, rfl⟩⟩)
    refine Tr.read (hrow 0 (by omega)) (Tr.read (hrow 1 (by omega)) (Tr.read (hrow 2 (by omega)) (Tr.read (hrow 3 (by omega)) ?_)))
    refine Tr.loop (fun k hk => ?_) ?_
    · have hlk : l * C + k < (lmax + 1) * C := flat_lt hl hk
      refine Tr.seq (g := fun _ => 0) (B := zeroCells ab i (l * C + k)) ?_ ?_
      · unfold zeroCells
        simp only [Option.bind_eq_bind]
        exact Tr.disj (Tr.set (flat_four hab hi (by omega) hlk) rfl) (Tr.disj (Tr.set (flat_four hab hi (by omega) hlk) rfl)
          (Tr.disj (Tr.set (flat_four hab hi (by omega) hlk) rfl) (Tr.set (flat_four hab hi (by omega) hlk) rfl) (by simp)) (by simp)) (by simp)
      · refine Tr.congr (Tr.iter (fun n c => ∑ k' ∈ Finset.range n, m l k' k * f [ab, i, c.getD 2 0, l * C + k']) (fun kp hkp => ?_)) ?_ ?_
        · unfold mixCells
          simp only [Option.bind_eq_bind]
          refine Tr.opt (hA l hl kp hkp k hk) ?_
          have hb : ∀ s < 4, Tr [nA, nI, 4, (lmax + 1) * C] (fun v => mdV v [ab, i, s, l * C + k] (fun y => y + m l kp k * f [ab, i, s, l * C + kp]))
              {[ab, i, s, l * C + k]} (fun c => ∑ k' ∈ Finset.range kp, m l k' k * f [ab, i, c.getD 2 0, l * C + k'])
              (fun c => ∑ k' ∈ Finset.range (kp + 1), m l k' k * f [ab, i, c.getD 2 0, l * C + k']) := fun s hs =>
            Tr.md (flat_four hab hi hs hlk) (by rw [Finset.sum_range_succ]; rfl)
          refine Tr.opt (getElem?_tab_lt hkp) (Tr.disj (hb 0 (by omega)) ?_ (by simp))
          refine Tr.opt (getElem?_tab_lt hkp) (Tr.disj (hb 1 (by omega)) ?_ (by simp))
          refine Tr.opt (getElem?_tab_lt hkp) (Tr.disj (hb 2 (by omega)) ?_ (by simp))
          exact Tr.opt (getElem?_tab_lt hkp) (hb 3 (by omega))
        · intro c _; simp
        · intro c hc
          obtain ⟨s, hs, rfl⟩ := mem_Q4.mp hc
          exact hg i hi s hs l hl k hk
    · intro x _ y _ hxy
      refine disj_cells (fun c => ?_)
      simp only [mem_Q4]
      grind
  · intro x _ y _ hxy
    refine disj_cells (fun c => ?_)
    simp only [mem_un, mem_Q4]
    rintro ⟨k, hk, s, hs, rfl⟩ ⟨k', hk', s', hs', h⟩
    simp only [List.cons.injEq, true_and, and_true] at h
    exact hxy ((flat_inj hk hk').mp h.2).1
  · intro x _ y _ hxy
    refine disj_cells (fun c => ?_)
    simp only [mem_un, mem_Q4]
    grind

theorem R0coeffs_spec {h : K} {vals ders : List (List (List K))} {H0w : List K} {A0w : List (List (List K))} {n nP : ℕ}
    {v d : ℕ → ℕ → ℕ → K} {e : ℕ → ℕ → K} {m : ℕ → ℕ → ℕ → ℕ → K} {t0 : List (List K)} {t00 : List K} (hC : 0 < C)
    (h0 : vals[0]? = some t0) (h00 : t0[0]? = some t00) (hn : t00.length = n) (hn0 : 0 < n)
    (ht : TabOk nP ((lmax + 1) * C) n vals ders v d) (hu : ∀ a < nT, ∀ b < nT, pairIndex nT a b < nP)
    (hH : ∀ b < nT, ∀ k < C, H0w[b * C + k]? = some (e b k))
    (hA : ∀ a < nT, ∀ l < lmax + 1, ∀ k' < C, ∀ k < C,
      ((A0w[a]?).bind (fun t => t[l]?)).bind (fun t => t[k' * C + k]?) = some (m a l k' k)) :
    ∃ co, R0coeffs C lmax nT h vals ders H0w A0w = some co ∧
      ∀ a < nT, ∀ b < nT, ∀ i < n - 1, ∀ s < 4, ∀ l < lmax + 1, ∀ k < C, co.get [a * nT + b, i, s, l * C + k] =
        some (∑ k' ∈ Finset.range C, m a l k' k * (cub h (v (pairIndex nT a b) (l * C + k') i) (d (pairIndex nT a b) (l * C + k') i)
          (v (pairIndex nT a b) (l * C + k') (i + 1)) (d (pairIndex nT a b) (l * C + k') (i + 1)) s * e b k')) := by
  set S := (lmax + 1) * C with hS
  let G : ℕ → ℕ → ℕ → ℕ → ℕ → K := fun a b i s j => cub h (v (pairIndex nT a b) j i) (d (pairIndex nT a b) j i)
    (v (pairIndex nT a b) j (i + 1)) (d (pairIndex nT a b) j (i + 1)) s
  let F : List ℕ → K := d4 fun ab i s j => ∑ k' ∈ Finset.range C, m (ab / nT) (j / C) k' (j % C) *
    (G (ab / nT) (ab % nT) i s (j / C * C + k') * e (ab % nT) k')
  have hloop : ∀ f, Tr [nT * nT, n - 1, 4, S] (Verif.loop nT (fun a => Verif.loop nT (fun b v => do
      let ab := a * nT + b
      let u := if a ≤ b then a * (2 * nT - a - 1) / 2 + b else b * (2 * nT - b - 1) / 2 + a
      let values ← vals[u]?
      let derivs ← ders[u]?
      let v ← R0values h values derivs (n - 1) S ab v
      let v ← R0embed C H0w (n - 1) S ab b v
      R0mix C lmax A0w (n - 1) a ab v))) (un nT fun a => un nT fun b => PC (n - 1) S (a * nT + b)) f F := by
    intro f
    refine Tr.loop (fun a ha => Tr.loop (fun b hb => ?_) ?_) ?_
    · have hab := flat_lt ha hb
      obtain ⟨t, t', e1, e2, h1⟩ := ht _ (hu a ha b hb)
      simp only [Option.bind_eq_bind]
      refine Tr.opt (o := vals[if a ≤ b then a * (2 * nT - a - 1) / 2 + b else b * (2 * nT - b - 1) / 2 + a]?) e1
        (Tr.opt (o := ders[if a ≤ b then a * (2 * nT - a - 1) / 2 + b else b * (2 * nT - b - 1) / 2 + a]?) e2 ?_)
      refine Tr.seq (g := d4 fun _ i s j => G a b i s j) (R0values_tr hab (v := v (pairIndex nT a b)) (d := d (pairIndex nT a b))
        (by rw [show n - 1 + 1 = n by omega]; exact h1) (fun i _ s _ j _ => rfl)) ?_
      refine Tr.seq (g := d4 fun _ i s j => G a b i s j * e b (j % C)) (R0embed_tr hab hC (hH b hb) (fun i _ s _ j _ => rfl)) ?_
      refine R0mix_tr hab hC (hA a ha) (fun i _ s _ l _ k hk => ?_)
      show ∑ k' ∈ Finset.range C, _ = ∑ k' ∈ Finset.range C, _
      refine Finset.sum_congr rfl (fun k' hk' => ?_)
      rw [Finset.mem_range] at hk'
      show _ = m a l k' k * (G a b i s (l * C + k') * e b ((l * C + k') % C))
      rw [flat_div hb, flat_mod hb, flat_div hk, flat_mod hk, flat_mod hk']
    · intro x hx y hy hxy
      refine disj_cells (fun c => ?_)
      simp only [PC, mem_un, mem_Q4]
      grind
    · intro x hx y hy hxy
      refine disj_cells (fun c => ?_)
      simp only [PC, mem_un, mem_Q4]
      rintro ⟨b, hb, i, hi, j, hj, s, hs, rfl⟩ ⟨b', hb', i', hi', j', hj', s', hs', h⟩
      simp only [List.cons.injEq] at h
      exact hxy ((flat_inj hb hb').mp h.1).1
  obtain ⟨co, k1, -, -, k4⟩ := Tr.run hloop (v := View.new [nT * nT, n - 1, 4, S] 0) rfl (View.new_ok _ _) (by
    rintro c ⟨a, ha, b, hb, i, hi, j, hj, hc⟩
    obtain ⟨s, hs, rfl⟩ := mem_Q4.mp hc
    exact ⟨_, flat_four (flat_lt ha hb) hi hs hj⟩)
  refine ⟨co, ?_, fun a ha b hb i hi s hs l hl k hk => ?_⟩
  · unfold R0coeffs
    rw [h0]
    simp only [Option.bind_eq_bind, Option.bind_some]
    rw [h00, Option.bind_some, less1, if_neg (by omega), Option.bind_some, hn]
    exact k1
  · rw [k4 _ ⟨a, ha, b, hb, i, hi, l * C + k, flat_lt hl hk, mem_Q4.mpr ⟨s, hs, rfl⟩⟩]
    show some (∑ k' ∈ Finset.range C, _) = _
    rw [flat_div hb, flat_mod hb, flat_div hk, flat_mod hk]

end R0

end Verif.Kokkos
