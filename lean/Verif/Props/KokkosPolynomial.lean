import Verif.Lemmas.Kokkos.PolySimple
import Verif.Props.Polynomial

/-! # Property theorems: multivariate polynomials on Kokkos devices (C73 - C75) -/

namespace Verif.Props
open Verif.Poly Verif.Spec Verif.Kokkos Verif.Par Verif.Par.Prog

/-- Entries of a vector that pairs like the derivative of the polynomial are the partial derivatives. -/
theorem deriv_of_pairing {coeffs : List ℝ} {monos : List (List ℕ)} {X G : ℕ → ℝ} {n : ℕ}
    (h : ∀ d : ℕ → ℝ, ∑ v ∈ Finset.range n, G v * d v = ((monos.zip coeffs).map (fun q => q.2 * lbz X d q.1)).sum) {v : ℕ} (hv : v < n) :
    HasDerivAt (fun t => polynomial coeffs monos (Function.update X v t)) (G v) (X v) := by
  have hd := hasDerivAt_polynomial (x := fun t => Function.update X v t) (d := fun w => if w = v then 1 else 0) (t := X v) coeffs monos (by
    intro m _ w _
    by_cases h : w = v
    · subst h
      simpa using hasDerivAt_id' (X w)
    · simpa [h] using hasDerivAt_const (X v) (X w))
  have h6 := h (fun w => if w = v then 1 else 0)
  simp only [Function.update_eq_self] at hd
  rw [← h6] at hd
  simpa [hv] using hd

/-- C73 where the host can access the device memory: in every schedule and after every history of calls, `evaluate` returns the
polynomial and `evaluate_gradient` the polynomial and all its partial derivatives.  Excluded: polynomials without terms in at least
one variable, and separate memories, see `C73_violated`. -/
theorem C73_graph_partial (srt : List (List (List ℕ)) → List (List (List ℕ))) (hs : SortFn srt) (nv : ℕ)
    (coeffs : List ℝ) (monos : List (List ℕ)) (hlen : coeffs.length = monos.length) (hnd : monos.Nodup)
    (hne : ∀ m ∈ monos, m ≠ []) (hr : ∀ m ∈ monos, ∀ v ∈ m, v < nv) (h0 : monos = [] → nv = 0) :
    ∃ P0, PolyK.mk? srt true nv coeffs monos = some P0 ∧ ∀ P, ReachK P0 P → ∀ (V : Env ℝ) (x : List ℝ), x.length = nv →
      (∃ P', P.evaluate V x = some (polynomial coeffs monos (entries x), P')) ∧
      ∀ g : List ℝ, g.length = nv → ∃ g' P', P.evaluateGradient V x g = some (polynomial coeffs monos (entries x), g', P') ∧
        g'.length = nv ∧ ∀ v (hv : v < g'.length), HasDerivAt
          (fun t => polynomial coeffs monos (Function.update (entries x) v t)) g'[v] (entries x v) := by
  obtain ⟨q0, h1, h2, h3, h4, h5, h6, h7, h8, -⟩ := mk?_spec hs nv coeffs monos hlen hnd hne hr
  obtain ⟨P0, w, k1, k2, -⟩ := mkK_spec true h1 h3 hne h0
  refine ⟨P0, k1, fun P hP V x hx => ?_⟩
  obtain ⟨vs, ws, rfl, hv, hw⟩ := reachK_like hP
  have hR := k2 rfl
  have hR' : Rel { q0 with nodeValues := vs, nodeAdjoints := ws } { P0 with nodeValues := vs, nodeAdjoints := ws } :=
    ⟨hR.shared, hR.nv, hR.nc, hR.len, hR.edge, rfl, rfl⟩
  have hV := h2.like vs ws
  have l1 : q0.nodes.length ≤ vs.length := by rw [hv, hR.vals, h6]
  have l2 : q0.nodes.length ≤ ws.length := by rw [hw, hR.adjs, h7]
  have hX : ∀ i < q0.numVariables, x[i]? = some (entries x i) := fun i hi => getElem?_getD (by omega)
  have hp : nodeSum { q0 with nodeValues := vs, nodeAdjoints := ws } (monomial (entries x)) = polynomial coeffs monos (entries x) := h8 _
  constructor
  · obtain ⟨v, _, h9⟩ := evaluate_spec hV hX l1
    rw [hR'.evaluate V x, h9, hp]
    exact ⟨_, rfl⟩
  · intro g hg
    obtain ⟨v', w', G, _, _, h9, h10⟩ := evaluateGradient_spec hV hX l1 l2
    rw [hR'.evaluateGradient V x (by rw [hg]; exact h3.symm), h9, hp]
    refine ⟨_, _, rfl, by simpa using h3, fun v hvlt => ?_⟩
    have hvn : v < q0.numVariables := by simpa using hvlt
    have hgv : (tab q0.numVariables G)[v]'hvlt = G v := by
      have := getElem?_tab_lt (f := G) hvn
      rw [List.getElem?_eq_getElem hvlt] at this
      exact Option.some.inj this
    rw [show ((tab q0.numVariables G))[v]'hvlt = G v from hgv]
    exact deriv_of_pairing (fun d => by rw [h10 d]; exact h8 _) hvn

/-- Non-vacuity of C73–C75: `x0*x1*x1 + 2*x0` meets the hypotheses. -/
example : ∃ srt, SortFn srt ∧ ∃ monos : List (List ℕ), monos = [[0, 1, 1], [0]] ∧ monos.Nodup ∧ (∀ m ∈ monos, m ≠ []) ∧
    (∀ m ∈ monos, ∀ v ∈ m, v < 2) ∧ monos ≠ [] ∧ polynomial [(1 : ℤ), 2] monos (entries [3, 5]) = 81 := by
  refine ⟨fun l => l.mergeSort (fun a b => a.length ≤ b.length), fun l => ⟨List.mergeSort_perm _ _, ?_⟩,
    _, rfl, by decide, by decide, by decide, by decide, by decide⟩
  have := List.pairwise_mergeSort (le := fun a b : List (List ℕ) => decide (a.length ≤ b.length))
    (by intro a b c; simp; omega) (by intro a b; simp; omega) l
  exact this.imp (by simp)

/-- C73 is violated: the polynomial without terms in one variable cannot be constructed (the rows of `nodes` have no entries), while
the host class constructs and evaluates it; and with separate memories `evaluate` of `x0*x1` is undefined for all arguments (the
loop over the edges runs on the host). -/
theorem C73_violated (srt : List (List (List ℕ)) → List (List (List ℕ))) (hs : SortFn srt) :
    (∀ shared, PolyK.mk? srt shared 1 ([] : List ℝ) [] = none) ∧
    (∃ P P' : Poly ℝ, Poly.mk? srt 1 ([] : List ℝ) [] = some P ∧ P.evaluate [1] = some (0, P')) ∧
    ∃ P : PolyK ℝ, PolyK.mk? srt false 2 [1] [[0, 1]] = some P ∧ ∀ V x, P.evaluate V x = none := by
  refine ⟨fun shared => by cases shared <;> rfl, ?_, ?_⟩
  · obtain ⟨P, h1, h2⟩ := C19_value srt hs 1 ([] : List ℝ) [] rfl List.nodup_nil (by simp) (by simp)
    obtain ⟨P', h3⟩ := h2 P .init [1] rfl
    exact ⟨P, P', h1, h3⟩
  · obtain ⟨q, h1, h2, h3, -, -, -, -, -, -, h9, -⟩ := mk?_spec hs 2 [(1 : ℝ)] [[0, 1]] rfl (by simp) (by simp) (by simp)
    obtain ⟨P, w, k1, -, k3, -, k5, -⟩ := mkK_spec false h1 h3 (by simp) (by simp)
    refine ⟨P, k1, fun V x => ?_⟩
    have he : 0 < q.edges.length := by
      by_contra hc
      have hl := h2.len
      obtain ⟨i, hi, e⟩ := List.getElem_of_mem (h9 [0, 1] (by simp))
      have hi' : i < q.numVariables := by omega
      have := h2.var i hi'
      rw [List.getElem?_eq_getElem hi, e] at this
      simp at this
    unfold PolyK.evaluate
    simp only [Option.bind_eq_bind]
    rw [Option.bind_eq_none_iff]
    intro v _
    rw [Option.bind_eq_none_iff]
    intro v' hv'
    unfold PolyK.forwardPass at hv'
    obtain ⟨t, t', e⟩ := loop_some_imp hv' 0 (by rw [k5]; exact he)
    rw [k3] at e
    cases e

/-- C74 where the host can access the device memory: `evaluate_simple` returns the polynomial in every schedule and after every
history.  For separate memories see `C74_violated`. -/
theorem C74_simple_partial (srt : List (List (List ℕ)) → List (List (List ℕ))) (hs : SortFn srt) (nv : ℕ)
    (coeffs : List ℝ) (monos : List (List ℕ)) (hlen : coeffs.length = monos.length) (hnd : monos.Nodup)
    (hne : ∀ m ∈ monos, m ≠ []) (hr : ∀ m ∈ monos, ∀ v ∈ m, v < nv) (h0 : monos = [] → nv = 0) :
    ∃ P0, PolyK.mk? srt true nv coeffs monos = some P0 ∧ ∀ P, ReachK P0 P → ∀ (V : Env ℝ) (x : List ℝ), x.length = nv →
      P.evaluateSimple V x = some (polynomial coeffs monos (entries x)) := by
  obtain ⟨q0, h1, h2, h3, -⟩ := mk?_spec hs nv coeffs monos hlen hnd hne hr
  obtain ⟨P0, w, k1, -, -, k4, -, k6, k7⟩ := mkK_spec true h1 h3 hne h0
  refine ⟨P0, k1, fun P hP V x hx => ?_⟩
  obtain ⟨vs, ws, rfl, -, -⟩ := reachK_like hP
  have := valueK_spec (P := { P0 with nodeValues := vs, nodeAdjoints := ws }) k6 k7 hne (by rw [← hlen, ← k4])
    (fun m hm a ha => getElem?_getD (x := x) (by have := hr m hm a ha; omega)) V.L
  rw [← k4]
  exact this

/-- The rows as the device sees them with separate memories. -/
theorem rows_padded {v : View ℤ} {monos : List (List ℕ)} {w : ℕ} (h : Rows v monos w 0) (hw : ∀ m ∈ monos, m.length ≤ w) :
    Rows v (monos.map (fun m => m ++ List.replicate (w - m.length) 0)) w (-1) := by
  refine ⟨h.ok, by rw [h.ext, List.length_map], fun i hi j hj => ?_⟩
  have hi' : i < monos.length := by simpa using hi
  rw [h.get i hi' j hj, List.getElem?_map, List.getElem?_eq_getElem hi']
  simp only [Option.map_some, Option.getD_some]
  have := hw _ (List.getElem_mem hi')
  congr 1
  by_cases hjm : j < monos[i].length
  · rw [List.getElem?_append_left hjm, List.getElem?_eq_getElem hjm]
  · rw [List.getElem?_append_right (by omega), List.getElem?_eq_none (by omega), List.getElem?_replicate, if_pos (by omega)]
    rfl

/-- C74 is violated for separate memories: the padding of the short monomials is lost in the mirror view, so that they are multiplied
with powers of `x0`: `x0 + x0*x0` is evaluated as `x0*x0 + x0*x0`, at `x0 = 2` to 8 instead of 6. -/
theorem C74_violated (srt : List (List (List ℕ)) → List (List (List ℕ))) (hs : SortFn srt) :
    polynomial [(1 : ℝ), 1] [[0], [0, 0]] (entries [2]) = 6 ∧
    ∃ P : PolyK ℝ, PolyK.mk? srt false 1 [1, 1] [[0], [0, 0]] = some P ∧ ∀ V, P.evaluateSimple V [2] = some 8 := by
  refine ⟨by norm_num [polynomial, monomial, entries], ?_⟩
  obtain ⟨q, h1, h2, h3, -⟩ := mk?_spec hs 1 [(1 : ℝ), 1] [[0], [0, 0]] rfl (by simp) (by simp) (by simp)
  obtain ⟨P, w, k1, -, -, k4, -, k6, k7⟩ := mkK_spec false h1 h3 (by simp) (by simp)
  refine ⟨P, k1, fun V => ?_⟩
  have hw : w = 2 := by
    have e1 : PolyK.mk? srt false 1 [(1 : ℝ), 1] [[0], [0, 0]] = some P := k1
    unfold PolyK.mk? at e1
    simp only [Option.bind_eq_bind] at e1
    obtain ⟨mv, m1, e1⟩ := Option.bind_eq_some_iff.mp e1
    rw [h1, Option.bind_some] at e1
    obtain ⟨nw, -, e1⟩ := Option.bind_eq_some_iff.mp e1
    obtain ⟨ev, -, e1⟩ := Option.bind_eq_some_iff.mp e1
    have hP : P.monomials = mv := by rw [← Option.some.inj e1]
    have := k6.ext
    rw [hP, ← Option.some.inj (show some _ = some mv from m1)] at this
    have h' : ([2, 2] : List ℕ) = [2, w] := this
    simpa using h'.symm
  subst hw
  have := valueK_spec (P := P) (x := [2]) (X := entries [2]) (rows_padded k6 k7) (by simp) (by simp) (by rw [k4]; simp)
    (fun m hm a ha => by
      have : a = 0 := by
        simp only [List.map_cons, List.map_nil, List.mem_cons, List.not_mem_nil, or_false] at hm
        rcases hm with rfl | rfl <;> simpa using ha
      subst this
      rfl) V.L
  rw [PolyK.evaluateSimple, this, k4]
  norm_num [polynomial, monomial, entries]

/-- C75 where the host can access the device memory, what holds: the value is right in every schedule; the gradient is right if the
threads run one after the other, or if no two monomials have a common variable.  Otherwise see `C75_violated`. -/
theorem C75_gradient_simple_partial (srt : List (List (List ℕ)) → List (List (List ℕ))) (hs : SortFn srt) (nv : ℕ)
    (coeffs : List ℝ) (monos : List (List ℕ)) (hlen : coeffs.length = monos.length) (hnd : monos.Nodup)
    (hne : ∀ m ∈ monos, m ≠ []) (hr : ∀ m ∈ monos, ∀ v ∈ m, v < nv) (h0 : monos = [] → nv = 0) :
    ∃ P0, PolyK.mk? srt true nv coeffs monos = some P0 ∧ ∀ P, ReachK P0 P → ∀ (V : Env ℝ) (x g : List ℝ), x.length = nv → g.length = nv →
      (∀ f g', P.evaluateGradientSimple V x g = some (f, g') → f = polynomial coeffs monos (entries x)) ∧
      (V.L = Launcher.inOrder ℝ ∨ monos.Pairwise List.Disjoint →
        ∃ g', P.evaluateGradientSimple V x g = some (polynomial coeffs monos (entries x), g') ∧ g'.length = nv ∧
          ∀ v (hv : v < g'.length), HasDerivAt
            (fun t => polynomial coeffs monos (Function.update (entries x) v t)) g'[v] (entries x v)) := by
  obtain ⟨q0, h1, h2, h3, -⟩ := mk?_spec hs nv coeffs monos hlen hnd hne hr
  obtain ⟨P0, w, k1, -, -, k4, -, k6, k7⟩ := mkK_spec true h1 h3 hne h0
  refine ⟨P0, k1, fun P hP V x g hx hg => ?_⟩
  obtain ⟨vs, ws, rfl, -, -⟩ := reachK_like hP
  generalize hQ : ({ P0 with nodeValues := vs, nodeAdjoints := ws } : PolyK ℝ) = Q
  have q6 : Rows Q.monomials monos w (-1) := by rw [← hQ]; exact k6
  have q4 : Q.coefficients = coeffs := by rw [← hQ]; exact k4
  have hl : Q.coefficients.length = monos.length := by rw [q4, hlen]
  have hX : ∀ m ∈ monos, ∀ a ∈ m, x[a]? = some (entries x a) := fun m hm a ha => getElem?_getD (by have := hr m hm a ha; omega)
  have hval := valueK_spec q6 k7 hne hl hX V.L
  rw [q4] at hval
  constructor
  · intro f g' e
    unfold PolyK.evaluateGradientSimple at e
    rw [hval] at e
    simp only [Option.bind_eq_bind, Option.bind_some] at e
    obtain ⟨v, -, e⟩ := Option.bind_eq_some_iff.mp e
    exact (Prod.mk.inj (Option.some.inj e)).1.symm
  · intro hor
    obtain ⟨G, r1, r2⟩ := gradK_run q6 k7 hl hX hr
    have hgo : V.L.go (Q.gradK x (fun _ => [nv])) (fun _ : Unit => List.replicate nv 0) = some ([], fun _ => tab nv G) := by
      rw [← r1]
      rcases hor with h | h
      · rw [h]; rfl
      · exact outcome_unique (gradK_raceFree q6 hl h nv) (V.L.legal _ _)
    refine ⟨tab nv G, ?_, by simp, fun v hvlt => ?_⟩
    · unfold PolyK.evaluateGradientSimple Launcher.launch1 Launcher.launch
      rw [hval, hg]
      simp only [Option.bind_eq_bind, Option.bind_some]
      rw [hgo]
      rfl
    · have hvn : v < nv := by simpa using hvlt
      have hgv : (tab nv G)[v]'hvlt = G v := by
        have := getElem?_tab_lt (f := G) hvn
        rw [List.getElem?_eq_getElem hvlt] at this
        exact Option.some.inj this
      rw [hgv]
      rw [q4] at r2
      exact deriv_of_pairing r2 hvn

example : [[0, 0], [1, 2]].Pairwise List.Disjoint := by simp [List.Disjoint]

section race

/-- The two threads of the gradient kernel for `x0 + x0*x1` at `(1, 1)`. -/
def thread0 : Prog Unit ℝ := .rd () 0 (fun x => .wr () 0 (x + 1) (.ret []))

def thread1 : Prog Unit ℝ :=
  .rd () 0 (fun x => .wr () 0 (x + 1) (.rd () 1 (fun y => .wr () 1 (y + 1) (.ret []))))

/-- A lost update: both threads read entry 0 before one of them writes it. -/
theorem race_outcome (f : ℕ → Prog Unit ℝ) (h0 : f 0 = thread0) (h1 : f 1 = thread1) :
    Outcome (parFor 2 f) (fun _ => [0, 0]) (some ([], fun _ => [1, 1])) := by
  let m : ℝ → ℝ → Bufs Unit ℝ := fun x y _ => [x, y]
  let k : List (List ℝ) → Prog Unit ℝ := fun _ => .ret []
  have hput0 : ∀ x y z, putAt () 0 z (m x y) = some (m z y) := fun x y z => by
    unfold putAt modAt
    simp only [m, List.getElem?_cons_zero]
    congr 1
  have hput1 : ∀ x y z, putAt () 1 z (m x y) = some (m x z) := fun x y z => by
    unfold putAt modAt
    simp only [m, List.getElem?_cons_succ, List.getElem?_cons_zero]
    congr 1
  have hrd0 : ∀ (g : ℕ → Prog Unit ℝ) i x y (c : ℝ → Prog Unit ℝ), i < 2 → g i = .rd () 0 c →
      Step (.par 2 g k, m x y) (.par 2 (Function.update g i (c x)) k, m x y) := by
    intro g i x y c hi hg
    refine ⟨.rd () 0 x, .inner hi (by rw [hg]; exact Trans.rd _ _ _ _), ?_⟩
    simp [Act.exec, m]
  have hrd1 : ∀ (g : ℕ → Prog Unit ℝ) i x y (c : ℝ → Prog Unit ℝ), i < 2 → g i = .rd () 1 c →
      Step (.par 2 g k, m x y) (.par 2 (Function.update g i (c y)) k, m x y) := by
    intro g i x y c hi hg
    refine ⟨.rd () 1 y, .inner hi (by rw [hg]; exact Trans.rd _ _ _ _), ?_⟩
    simp [Act.exec, m]
  have hwr0 : ∀ (g : ℕ → Prog Unit ℝ) i x y z (c : Prog Unit ℝ), i < 2 → g i = .wr () 0 z c →
      Step (.par 2 g k, m x y) (.par 2 (Function.update g i c) k, m z y) := by
    intro g i x y z c hi hg
    exact ⟨.wr () 0 z, .inner hi (by rw [hg]; exact Trans.wr _ _ _ _), hput0 x y z⟩
  have hwr1 : ∀ (g : ℕ → Prog Unit ℝ) i x y z (c : Prog Unit ℝ), i < 2 → g i = .wr () 1 z c →
      Step (.par 2 g k, m x y) (.par 2 (Function.update g i c) k, m x z) := by
    intro g i x y z c hi hg
    exact ⟨.wr () 1 z, .inner hi (by rw [hg]; exact Trans.wr _ _ _ _), hput1 x y z⟩
  have hjoin : ∀ (g : ℕ → Prog Unit ℝ) x y, (∀ i < 2, g i = .ret []) → Step (.par 2 g k, m x y) (.ret [], m x y) := by
    intro g x y hg
    exact ⟨.tau, .join (fun _ => []) hg, rfl⟩
  refine .done (m' := m 1 1) ?_
  rw [show (fun _ : Unit => ([0, 0] : List ℝ)) = m 0 0 from rfl, show parFor 2 f = .par 2 f k from rfl]
  refine .head (hrd0 _ 0 0 0 _ (by omega) h0) (.head (hrd0 _ 1 0 0 _ (by omega) (by rw [Function.update_of_ne (by decide), h1]; rfl))
    (.head (hwr0 _ 0 0 0 1 (.ret []) (by omega) (by simp)) (.head (hwr0 _ 1 1 0 1 _ (by omega) (by simp; rfl))
      (.head (hrd1 _ 1 1 0 _ (by omega) (by simp; rfl)) (.head (hwr1 _ 1 1 0 1 (.ret []) (by omega) (by simp)) (.single (hjoin _ _ _ ?_)))))))
  intro i hi
  rcases (show i = 0 ∨ i = 1 by omega) with rfl | rfl <;> simp

open Classical in
/-- Threads in index order, except where another schedule fills a buffer with `[1, 1]`. -/
noncomputable def unlucky : Launcher ℝ where
  go p m := if h : ∃ o, Outcome p m o ∧ ∃ r b, o = some r ∧ r.2 b = [1, 1] then choose h else run p m
  legal p m := by
    split
    · rename_i h
      exact (choose_spec h).1
    · exact run_outcome p m

/-- C75 is violated: the threads add to the gradient without atomicity.  For `x0 + x0*x1` at `(1, 1)` there is a legal schedule in which
one addition is lost: the first derivative comes out as 1, its value is 2. -/
theorem C75_violated (srt : List (List (List ℕ)) → List (List (List ℕ))) (hs : SortFn srt) :
    HasDerivAt (fun t => polynomial [(1 : ℝ), 1] [[0], [0, 1]] (Function.update (entries [1, 1]) 0 t)) 2 1 ∧
    ∃ P : PolyK ℝ, PolyK.mk? srt true 2 [1, 1] [[0], [0, 1]] = some P ∧ ∀ V : Env ℝ, V.L = unlucky → ∀ g : List ℝ, g.length = 2 →
      ∃ f, P.evaluateGradientSimple V [1, 1] g = some (f, [1, 1]) := by
  constructor
  · have h : (fun t : ℝ => polynomial [(1 : ℝ), 1] [[0], [0, 1]] (Function.update (entries [1, 1]) 0 t)) = fun t => t * 2 := by
      funext t
      simp [polynomial, monomial, entries]
      ring
    rw [h]
    simpa using (hasDerivAt_id' (1 : ℝ)).mul_const 2
  · obtain ⟨q, h1, h2, h3, -⟩ := mk?_spec hs 2 [(1 : ℝ), 1] [[0], [0, 1]] rfl (by simp) (by simp) (by simp)
    obtain ⟨P, w, k1, -, -, k4, -, k6, k7⟩ := mkK_spec true h1 h3 (by simp) (by simp)
    refine ⟨P, k1, fun V hV g hg => ?_⟩
    have hw : 2 ≤ w := k7 [0, 1] (by simp)
    have he : P.monomials.extent 1 = w := by rw [View.extent, k6.ext]; rfl
    have hval := valueK_spec (P := P) (x := [1, 1]) (X := entries [1, 1]) k6 k7 (by simp) (by rw [k4]; rfl)
      (fun m hm a ha => getElem?_getD (by
        simp only [List.mem_cons, List.not_mem_nil, or_false] at hm
        rcases hm with rfl | rfl <;> simp at ha <;> simp <;> omega)) V.L
    have hd : ∀ i m, ([[0], [0, 1]] : List (List ℕ))[i]? = some m → ∀ j, derivs P.monomials [(1 : ℝ), 1] i j w 0 1 = some 1 := by
      intro i m hm j
      have hx : ∀ a ∈ m, ([1, 1] : List ℝ)[a]? = some ((fun _ => 1 : ℕ → ℝ) a) := by
        intro a ha
        have : m ∈ [[0], [0, 1]] := List.mem_of_getElem? hm
        simp only [List.mem_cons, List.not_mem_nil, or_false] at this
        rcases this with rfl | rfl
        · simp at ha; subst ha; rfl
        · simp at ha; rcases ha with rfl | rfl <;> rfl
      rw [derivs_spec k6 hm (k7 m (List.mem_of_getElem? hm)) hx j w 0 1 (by omega) (by omega)]
      simp [monomial]
    have g00 := k6.entry (i := 0) (m := [0]) rfl (j := 0) (by omega)
    have g01 := k6.entry (i := 0) (m := [0]) rfl (j := 1) (by omega)
    have g10 := k6.entry (i := 1) (m := [0, 1]) rfl (j := 0) (by omega)
    have g11 := k6.entry (i := 1) (m := [0, 1]) rfl (j := 1) (by omega)
    have hw2 : w = 2 := by
      have e1 : PolyK.mk? srt true 2 [(1 : ℝ), 1] [[0], [0, 1]] = some P := k1
      unfold PolyK.mk? at e1
      simp only [Option.bind_eq_bind] at e1
      obtain ⟨mv, m1, e1⟩ := Option.bind_eq_some_iff.mp e1
      rw [h1, Option.bind_some] at e1
      obtain ⟨nw, -, e1⟩ := Option.bind_eq_some_iff.mp e1
      obtain ⟨ev, -, e1⟩ := Option.bind_eq_some_iff.mp e1
      have hP : P.monomials = mv := by rw [← Option.some.inj e1]
      have := k6.ext
      rw [hP, ← Option.some.inj (show some _ = some mv from m1)] at this
      have h' : ([2, 2] : List ℕ) = [2, w] := this
      simpa using h'.symm
    subst hw2
    have t0 : P.gradLoop [1, 1] 0 (fun _ => [2]) 2 0 = thread0 := by
      unfold PolyK.gradLoop PolyK.gradLoop
      rw [he, hd 0 [0] rfl, g00, g01, k4]
      simp [opt, both, thread0, plus, upd, flat, seq, Prog.bind]
    have t1 : P.gradLoop [1, 1] 1 (fun _ => [2]) 2 0 = thread1 := by
      unfold PolyK.gradLoop PolyK.gradLoop PolyK.gradLoop
      rw [he, hd 1 [0, 1] rfl, hd 1 [0, 1] rfl, g10, g11, k4]
      simp [opt, both, thread1, plus, upd, flat, seq, Prog.bind]
    have hout : Outcome (P.gradK [1, 1] (fun _ => [2])) (fun _ : Unit => [0, 0]) (some ([], fun _ => [1, 1])) := by
      unfold PolyK.gradK
      rw [k4, he]
      exact race_outcome _ t0 t1
    have hgo : ∃ r, unlucky.go (P.gradK [1, 1] (fun _ => [2])) (fun _ : Unit => [0, 0]) = some r ∧ r.2 () = [1, 1] := by
      have hex : ∃ o, Outcome (P.gradK [1, 1] (fun _ => [2])) (fun _ : Unit => ([0, 0] : List ℝ)) o ∧ ∃ r b, o = some r ∧ r.2 b = [1, 1] :=
        ⟨_, hout, _, (), rfl, rfl⟩
      obtain ⟨r, b, e1, e2⟩ := (Classical.choose_spec hex).2
      refine ⟨r, ?_, e2⟩
      unfold unlucky
      simp only
      rw [dif_pos hex, e1]
    obtain ⟨r, e1, e2⟩ := hgo
    refine ⟨polynomial P.coefficients [[0], [0, 1]] (entries [1, 1]), ?_⟩
    unfold PolyK.evaluateGradientSimple Launcher.launch1 Launcher.launch
    rw [hval, hg, hV]
    simp only [Option.bind_eq_bind, Option.bind_some]
    rw [show List.replicate 2 (0 : ℝ) = [0, 0] from rfl, e1]
    simp only [Option.map_some, Option.bind_some, e2]

example : ({ Env.simple ℝ with L := unlucky } : Env ℝ).L = unlucky := rfl

end race

end Verif.Props
