import Verif.Lemmas.Num.Two

/-!
# The stages overwrite what they read later

Two states with different contents of the buffers; after each stage the buffers it has computed are equal in both runs.
-/

namespace Verif.Num
open Verif.MACE

variable {K : Type} [A : Arith K]

/-! ## Splines -/

section splines

/-- Two pairs of output buffers, equal up to positions `n` and `m`. -/
def Agr2 (L L' n m : ℕ) (s t : Bufs Bool K) : Prop := Agr L (· < n) (s false) (t false) ∧ Agr L' (· < m) (s true) (t true)

theorem modAt_md (b : Bool) (i : ℕ) (f : K → K) (s : Bufs Bool K) : modAt b i f s = (md (s b) i f).map (Function.update s b) := by
  unfold modAt md
  cases (s b)[i]? <;> rfl

variable {L L' n m : ℕ} {s t : Bufs Bool K}

theorem rowNext_f {base S : ℕ} {c : List K} {off : ℤ} (h : Agr2 L L' base m s t) :
    Two (Agr2 L L' (base + S) m) (rowPass false base c off S (fun _ c => c) s) (rowPass false base c off S (fun _ c => c) t) := by
  unfold rowPass
  refine Two.loop (fun j => Agr2 L L' (base + j) m) h fun j _ s t h => Two.same fun x _ => ?_
  rw [modAt_md, modAt_md]
  refine Two.map (h.1.mdNext rfl) fun a b hab => ⟨?_, ?_⟩
  · simpa [Function.update] using show Agr L (· < base + (j + 1)) a b from hab
  · simpa using h.2

theorem rowNext_t {base S : ℕ} {c : List K} {off : ℤ} (h : Agr2 L L' n base s t) :
    Two (Agr2 L L' n (base + S)) (rowPass true base c off S (fun _ c => c) s) (rowPass true base c off S (fun _ c => c) t) := by
  unfold rowPass
  refine Two.loop (fun j => Agr2 L L' n (base + j)) h fun j _ s t h => Two.same fun x _ => ?_
  rw [modAt_md, modAt_md]
  refine Two.map (h.2.mdNext rfl) fun a b hab => ⟨?_, ?_⟩
  · simpa using h.1
  · simpa [Function.update] using show Agr L' (· < base + (j + 1)) a b from hab

theorem rowKeep {b : Bool} {base S : ℕ} {c : List K} {off : ℤ} {f : K → K → K} (h : Agr2 L L' n m s t) (hb : base + S ≤ if b then m else n) :
    Two (Agr2 L L' n m) (rowPass b base c off S f s) (rowPass b base c off S f t) := by
  unfold rowPass
  refine Two.loop (fun j => Agr2 L L' n m) h fun j hj s t h => Two.same fun x _ => ?_
  rw [modAt_md, modAt_md]
  cases b
  · refine Two.map (h.1.md (by simp at hb ⊢; omega)) fun a b hab => ⟨by simpa using hab, by simpa using h.2⟩
  · refine Two.map (h.2.md (by simp at hb ⊢; omega)) fun a b hab => ⟨by simpa using h.1, by simpa using hab⟩

theorem setDerivs_two {sp : Spline.SplineSet K} {r : K} {base : ℕ} (h : Agr2 L L' base base s t) :
    Two (Agr2 L L' (base + sp.num_splines) (base + sp.num_splines)) (setDerivs sp r base s) (setDerivs sp r base t) := by
  unfold setDerivs
  refine Two.bind (rowNext_f h) fun s t h => ?_
  refine Two.bind (rowKeep h (by simp)) fun s t h => Two.bind (rowKeep h (by simp)) fun s t h => Two.bind (rowKeep h (by simp)) fun s t h => ?_
  refine Two.bind (rowNext_t h) fun s t h => ?_
  exact Two.bind (rowKeep h (by simp)) fun s t h => rowKeep h (by simp)

end splines

/-! ## Nodes and edges -/

section graph
variable {g : Graph K} {α β : Type}

/-- Loop over the nodes with the running edge counter: `R i e a b` before node `i`, whose first edge is `e`. -/
theorem Two.nodes {N : ℕ} {nn : List ℕ} {f : ℕ → ℕ × α → Option (ℕ × α)} {g : ℕ → ℕ × β → Option (ℕ × β)} {a : α} {b : β}
    (R : ℕ → α → β → Prop) (h0 : R 0 a b) (hN : N ≤ nn.length)
    (hs : ∀ i < N, ∀ a b, R i a b → Two (fun q q' => q.1 = off nn (i + 1) ∧ q'.1 = off nn (i + 1) ∧ R (i + 1) q.2 q'.2)
      (f i (off nn i, a)) (g i (off nn i, b))) :
    Two (fun q q' => R N q.2 q'.2) (Verif.loop N f (0, a)) (Verif.loop N g (0, b)) := by
  refine Two.mono (Two.loop (fun i q q' => q.1 = off nn i ∧ q'.1 = off nn i ∧ R i q.2 q'.2) ⟨(off_zero nn).symm, (off_zero nn).symm, h0⟩ ?_)
    fun _ _ h => h.2.2
  rintro i hi ⟨c, a⟩ ⟨c', b⟩ ⟨h1, h2, h3⟩
  dsimp only at h1 h2 h3
  subst h1; subst h2
  exact hs i hi a b h3

/-- What the sizes of the arguments and of the tables give. -/
structure Fits (nT E : ℕ) (P : Params K) (g : Graph K) : Prop where
  nn : g.N ≤ g.nn.length
  cnt : off g.nn g.N = E
  r : g.r.length = E
  xyz : g.xyz.length = 3 * E
  typ : ∀ i < g.N, ∀ t, g.types[i]? = some t → t < nT
  ntyp : ∀ e < E, ∀ t, g.ntypes[e]? = some t → t < nT
  set0 : ∀ ti < nT, ∀ tj < nT, ∀ s s0, P.splSet0[pairIndex P.atomicNumbers.length ti tj]? = some s → P.splSet0[0]? = some s0 → s.num_splines = s0.num_splines
  set1 : ∀ ti < nT, ∀ tj < nT, ∀ s s0, P.splSet1[pairIndex P.atomicNumbers.length ti tj]? = some s → P.splSet1[0]? = some s0 → s.num_splines = s0.num_splines
  numE : ∃ e : ℕ → ℕ, numE P = some (tab (P.lmax + 1) e) ∧ ((List.range (P.lmax + 1)).map fun l => (2 * l + 1) * e l).sum = sumLme P.phil
  lme : P.numLme = sumLme P.phil

end graph

section radial
variable {nT E nE : ℕ} {P : Params K} {g : Graph K}

theorem radial_two (h : Fits nT E P g) {spl : List (Spline.SplineSet K)}
    (hs : ∀ ti < nT, ∀ tj < nT, ∀ s s0, spl[pairIndex nE ti tj]? = some s → spl[0]? = some s0 → s.num_splines = s0.num_splines)
    (R Rd R' Rd' : List K) : Two Eq (radial nE spl g R Rd) (radial nE spl g R' Rd') := by
  unfold radial
  refine Two.same fun s0 hs0 => ?_
  dsimp only
  have hl : ∀ (x : List K) n, (resize x n).length = n := fun x n => (agr_resize x x n).l
  rw [hl, hl, h.r]
  have hst : Agr2 (E * s0.num_splines) (E * s0.num_splines) (off g.nn 0 * s0.num_splines) (off g.nn 0 * s0.num_splines)
      (fun b => if b then resize Rd (E * s0.num_splines) else resize R (E * s0.num_splines))
      (fun b => if b then resize Rd' (E * s0.num_splines) else resize R' (E * s0.num_splines)) := by
    rw [off_zero, zero_mul]
    exact ⟨agr_resize _ _ _, agr_resize _ _ _⟩
  refine Two.bind (R := fun q q' => Agr2 (E * s0.num_splines) (E * s0.num_splines) (E * s0.num_splines) (E * s0.num_splines) q.2 q'.2) ?_
    fun q q' hq => Two.pure ?_
  · refine Two.mono (Two.nodes (nn := g.nn) (fun i => Agr2 (E * s0.num_splines) (E * s0.num_splines) (off g.nn i * s0.num_splines) (off g.nn i * s0.num_splines))
      hst h.nn fun i hi a b hab => ?_) fun q q' hq => by rw [h.cnt] at hq; exact hq
    refine Two.same fun ti hti => Two.same fun n hn => ?_
    refine Two.mono (Two.edges (fun e => Agr2 (E * s0.num_splines) (E * s0.num_splines) (e * s0.num_splines) (e * s0.num_splines)) hab
      fun e _ he a b hab => ?_) fun q q' hq => by rw [off_succ hn]; exact hq
    have he : e < E := by
      have := off_mono g.nn (show i + 1 ≤ g.N from hi)
      rw [off_succ hn, h.cnt] at this
      omega
    refine Two.same fun tj htj => Two.same fun s hs1 => Two.same fun r _ => ?_
    refine Two.mono (setDerivs_two hab) fun a b hab => ?_
    rw [hs ti (h.typ _ hi _ hti) tj (h.ntyp _ he _ htj) s s0 hs1 hs0] at hab
    have e1 : (e + 1) * s0.num_splines = e * s0.num_splines + s0.num_splines := by ring
    rw [e1]
    exact hab
  · rw [hq.1.pre, hq.2.pre]

end radial

/-! ## Harmonics -/

section harmonics

theorem shuffle_two {num : ℕ} {xyz sh sh' : List K} (h : Agr (3 * num) (· < 0) sh sh') : Two Eq (shuffle num xyz sh) (shuffle num xyz sh') := by
  unfold shuffle
  refine Two.mono (Two.loop (fun i => Agr (3 * num) (· < 3 * i)) h fun i _ a b hab => ?_) fun _ _ h => h.pre
  exact Two.same fun _ _ => Two.bind (hab.wrNext rfl) fun a b hab => Two.same fun _ _ => Two.bind (hab.wrNext rfl) fun a b hab =>
    Two.same fun _ _ => hab.wrNext rfl

theorem sphValues_two {M num : ℕ} {sph : K → K → K → ℕ → K} {sh Y Y' : List K} (h : Agr (num * M) (· < 0) Y Y') :
    Two Eq (sphValues M sph num sh Y) (sphValues M sph num sh Y') := by
  unfold sphValues
  refine Two.mono (Two.loop (fun i => Agr (num * M) (· < i * M)) (h.mono fun _ _ _ => by omega) fun i _ a b hab => ?_) fun _ _ h => h.pre
  refine Two.mono (Two.loop (fun lm => Agr (num * M) (· < i * M + lm)) hab fun lm _ a b hab => ?_) fun _ _ h =>
    h.mono fun _ _ _ => by rw [← Nat.succ_mul]; omega
  exact Two.same fun _ _ => Two.same fun _ _ => Two.same fun _ _ => hab.wrNext rfl

theorem sphGrads_two {M num : ℕ} {dsph : K → K → K → ℕ → ℕ → K} {sh Y Y' : List K} (h : Agr (3 * num * M) (· < 0) Y Y') :
    Two Eq (sphGrads M dsph num sh Y) (sphGrads M dsph num sh Y') := by
  unfold sphGrads
  refine Two.mono (Two.loop (fun i => Agr (3 * num * M) (· < 3 * i * M)) (h.mono fun _ _ _ => by omega) fun i _ a b hab => ?_) fun _ _ h => h.pre
  refine Two.mono (Two.loop (fun c => Agr (3 * num * M) (· < 3 * i * M + c * M)) (hab.mono fun _ _ _ => by omega) fun c _ a b hab => ?_) fun _ _ h =>
    h.mono fun _ _ hp => by
      have : 3 * (i + 1) * M = 3 * i * M + 3 * M := by ring
      omega
  refine Two.mono (Two.loop (fun lm => Agr (3 * num * M) (· < 3 * i * M + c * M + lm)) hab fun lm _ a b hab => ?_) fun _ _ h =>
    h.mono fun _ _ hp => by
      have : 3 * i * M + (c + 1) * M = 3 * i * M + c * M + M := by ring
      omega
  exact Two.same fun _ _ => Two.same fun _ _ => Two.same fun _ _ => hab.wrNext rfl

end harmonics

/-! ## Polynomials -/

section poly

/-- Same polynomial, with buffers of the same length. -/
structure PolyLk (p q : Poly.Poly K) : Prop where
  nv : p.numVariables = q.numVariables
  edges : p.edges = q.edges
  co : p.nodeCoefficients = q.nodeCoefficients
  lv : p.nodeValues.length = q.nodeValues.length
  la : p.nodeAdjoints.length = q.nodeAdjoints.length

/-- The product graph refers to earlier nodes only. -/
structure PolyVal (p : Poly.Poly K) : Prop where
  len : p.nodeCoefficients.length = p.numVariables + p.edges.length
  edge : ∀ (i : ℕ) (e : ℕ × ℕ), p.edges[i]? = some e → e.1 < p.numVariables + i ∧ e.2 < p.numVariables + i

theorem PolyLk.symm {p q : Poly.Poly K} (h : PolyLk p q) : PolyLk q p := ⟨h.nv.symm, h.edges.symm, h.co.symm, h.lv.symm, h.la.symm⟩

theorem PolyLk.trans {p q r : Poly.Poly K} (h : PolyLk p q) (h' : PolyLk q r) : PolyLk p r :=
  ⟨h.nv.trans h'.nv, h.edges.trans h'.edges, h.co.trans h'.co, h.lv.trans h'.lv, h.la.trans h'.la⟩

theorem PolyLk.refl (p : Poly.Poly K) : PolyLk p p := ⟨rfl, rfl, rfl, rfl, rfl⟩

omit A in
theorem loop_len {N : ℕ} {f : ℕ → List K → Option (List K)} {xs : List K} {ys : List K} (h : loop N f xs = some ys)
    (hf : ∀ i xs ys, f i xs = some ys → ys.length = xs.length) : ys.length = xs.length := by
  induction N generalizing ys with
  | zero => cases h; rfl
  | succ N ih =>
    rw [loop_succ] at h
    obtain ⟨zs, h1, h2⟩ := Option.bind_eq_some_iff.mp h
    rw [hf _ _ _ h2, ih h1]

theorem polyGradient_lk {p : Poly.Poly K} {x : List K} {q : K × List K × Poly.Poly K} (h : polyGradient p x = some q) : PolyLk p q.2.2 := by
  unfold polyGradient at h
  simp only [Option.bind_eq_bind, Option.bind_eq_some_iff, Option.pure_def, Option.some.injEq] at h
  obtain ⟨v, h1, v2, h2, f, h3, w, h4, w2, h5, gr, h6, rfl⟩ := h
  have wl : ∀ (b : List K) i v ys, wr b i v = some ys → ys.length = b.length := fun b i v ys h => by
    unfold wr at h
    split_ifs at h
    cases h; simp
  have ml : ∀ (b : List K) i f ys, md b i f = some ys → ys.length = b.length := fun b i f ys h => by
    unfold md at h
    cases hx : b[i]? with
    | none => rw [hx] at h; cases h
    | some y => rw [hx] at h; cases h; simp
  refine ⟨rfl, rfl, rfl, ?_, ?_⟩
  · have e1 : v.length = p.nodeValues.length := loop_len h1 fun i xs ys h => by
      obtain ⟨a, -, h⟩ := Option.bind_eq_some_iff.mp h
      exact wl _ _ _ _ h
    have e2 : v2.length = v.length := loop_len h2 fun i xs ys h => by
      obtain ⟨a, -, h⟩ := Option.bind_eq_some_iff.mp h
      obtain ⟨b, -, h⟩ := Option.bind_eq_some_iff.mp h
      obtain ⟨c, -, h⟩ := Option.bind_eq_some_iff.mp h
      exact wl _ _ _ _ h
    exact (e2.trans e1).symm
  · have e1 : w.length = p.nodeAdjoints.length := loop_len h4 fun i xs ys h => by
      obtain ⟨a, -, h⟩ := Option.bind_eq_some_iff.mp h
      exact wl _ _ _ _ h
    have e2 : w2.length = w.length := loop_len h5 fun i xs ys h => by
      obtain ⟨a, -, h⟩ := Option.bind_eq_some_iff.mp h
      obtain ⟨b, -, h⟩ := Option.bind_eq_some_iff.mp h
      obtain ⟨c, -, h⟩ := Option.bind_eq_some_iff.mp h
      obtain ⟨d, hd, h⟩ := Option.bind_eq_some_iff.mp h
      obtain ⟨b, -, h⟩ := Option.bind_eq_some_iff.mp h
      obtain ⟨c, -, h⟩ := Option.bind_eq_some_iff.mp h
      exact (ml _ _ _ _ h).trans (ml _ _ _ _ hd)
    exact (e2.trans e1).symm

theorem polyGradient_two {p q : Poly.Poly K} (h : PolyLk p q) (hv : PolyVal q) (x : List K) :
    Two (fun a b => a.1 = b.1 ∧ a.2.1 = b.2.1) (polyGradient p x) (polyGradient q x) := by
  unfold polyGradient
  rw [h.nv, h.edges, h.co]
  have n1 : Agr q.nodeValues.length (· < 0) p.nodeValues q.nodeValues := ⟨h.lv, rfl, fun i hi => absurd hi (by omega)⟩
  have n2 : Agr q.nodeAdjoints.length (· < 0) p.nodeAdjoints q.nodeAdjoints := ⟨h.la, rfl, fun i hi => absurd hi (by omega)⟩
  refine Two.bind (R := Agr q.nodeValues.length (· < q.numVariables)) ?_ fun v v' hvv => ?_
  · unfold initForward
    exact Two.loop (fun i => Agr _ (· < i)) n1 fun i _ a b hab => Two.same fun _ _ => hab.wrNext rfl
  refine Two.bind (R := Agr q.nodeValues.length (· < q.numVariables + q.edges.length)) ?_ fun v v' hvv => ?_
  · unfold forwardPass
    refine Two.loop (fun i => Agr _ (· < q.numVariables + i)) hvv fun i _ a b hab => Two.same fun e he => ?_
    exact hab.bind (hv.edge i e he).1 fun _ => hab.bind (hv.edge i e he).2 fun _ => hab.wrNext rfl
  refine Two.bind (R := Eq) ?_ fun f f' hf => ?_
  · unfold ddot dotO MACE.pushLoop
    refine Two.map (Two.loop (fun _ => Eq) rfl fun i hi a b hab => ?_) fun a b hab => by rw [hab]
    subst hab
    dsimp only
    rw [hvv.eq i (by rw [← hv.len]; exact hi)]
    exact Two.refl
  refine Two.bind (R := Agr q.nodeAdjoints.length (· < q.numVariables + q.edges.length)) ?_ fun w w' hw => ?_
  · unfold dcopy1
    rw [← hv.len]
    exact Two.loop (fun i => Agr _ (· < i)) n2 fun i _ a b hab => Two.same fun _ _ => hab.wrNext rfl
  refine Two.bind (R := Agr q.nodeAdjoints.length (· < q.numVariables + q.edges.length)) ?_ fun w w' hw => ?_
  · unfold backwardPass
    refine Two.loop (fun _ => Agr _ _) hw fun k hk a b hab => Two.same fun e he => ?_
    have he := hv.edge _ e he
    exact hab.bind (by omega) fun _ => hvv.bind (by omega) fun _ => Two.bind (hab.md (by omega)) fun a b hab =>
      hab.bind (by omega) fun _ => hvv.bind (by omega) fun _ => hab.md (by omega)
  refine Two.bind (R := Eq) ?_ fun g g' hg => Two.pure ⟨hf, hg⟩
  unfold extractGradient
  exact Two.loop (fun _ => Eq) rfl fun i hi a b hab => hw.bind (by omega) fun _ => by subst hab; exact Two.refl

end poly

end Verif.Num
