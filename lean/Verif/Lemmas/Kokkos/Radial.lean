import Verif.Lemmas.Kokkos.Layer0
import Verif.Lemmas.MACE.Eval

/-! # Radial functions and harmonics -/

namespace Verif.Kokkos
open Verif.Par Verif.Par.Prog Verif.MACE

section twin
variable {K : Type}

/-- Two views reallocated together when the first is too small: the second has at least as many rows. -/
def Twin (v w : View K) (ns : List ℕ) (n : ℕ) : Prop := Room v ns n ∧ Room w ns n ∧ v.extent 0 ≤ w.extent 0

theorem Twin.mono {v w : View K} {ns : List ℕ} {n m : ℕ} (h : Twin v w ns n) (hm : m ≤ n) : Twin v w ns m := ⟨h.1.mono hm, h.2.1.mono hm, h.2.2⟩

theorem Twin.of_ext {v w v' w' : View K} {ns : List ℕ} {n : ℕ} (h : Twin v w ns n) (he : v'.ext = v.ext) (he' : w'.ext = w.ext) (hv : v'.Ok)
    (hw : w'.Ok) : Twin v' w' ns n :=
  ⟨h.1.of_ext he hv, h.2.1.of_ext he' hw, by unfold View.extent; rw [he, he']; exact h.2.2⟩

theorem Twin.grow [Zero K] {v w : View K} {ns : List ℕ} {m : ℕ} (h : Twin v w ns m) (n : ℕ) :
    Twin (if v.extent 0 < n then View.new (n :: ns) 0 else v) (if v.extent 0 < n then View.new (n :: ns) 0 else w) ns n := by
  split
  · exact ⟨Room.new _ _ _, Room.new _ _ _, le_rfl⟩
  · rename_i hlt
    exact ⟨h.1.extent hlt, h.2.1.extent (by have := h.2.2; omega), h.2.2⟩

end twin

section radial
variable {K : Type} [Field K] [LinearOrder K] [FloorRing K]
  {g : Graph K} {nT NH : ℕ} {c : Spec.Conf K} {n : ℕ → ℕ} {X : ℕ → ℕ → K} {R : ℕ → K}

/-- The coefficient table `co` describes the functions `φ` with derivatives `φ'` at the edges. -/
def RadOkK (h : K) (co : View K) (S : ℕ) (pair : ℕ → ℕ → ℕ) (g : Graph K) (c : Spec.Conf K) (R : ℕ → K) (φ φ' : ℕ → ℕ → K) : Prop :=
  ∀ i < g.N, ∀ e ∈ edges g.nn i, 0 ≤ truncInt (R e / h) ∧ ∀ k < S, ∃ c0 c1 c2 c3,
    coeffs co (pair (c.typ i) (c.nty e)) (truncInt (R e / h)).toNat k = some (c0, c1, c2, c3) ∧
    φ e k = (let x := R e - h * truncInt (R e / h); c0 + c1 * x + c2 * (x * x) + c3 * (x * x * x)) ∧
    φ' e k = (let x := R e - h * truncInt (R e / h); c1 + c2 * (2 * x) + c3 * (3 * (x * x)))

/-- Table entries for edges after those of the nodes, which the code evaluates with the type of node `0`. -/
def RadX (h : K) (co : View K) (S : ℕ) (pair : ℕ → ℕ → ℕ) (g : Graph K) : Prop :=
  ∀ e, g.E ≤ e → e < g.Ex → ∃ t0 te x, g.types[0]? = some t0 ∧ g.ntypes[e]? = some te ∧ g.r[e]? = some x ∧ 0 ≤ truncInt (x / h) ∧
    ∀ k < S, ∃ q, coeffs co (pair t0 te) (truncInt (x / h)).toNat k = some q

theorem RadX.none {h : K} {co : View K} {S : ℕ} {pair : ℕ → ℕ → ℕ} (hE : g.Ex = g.E) : RadX h co S pair g := fun e h1 h2 => by omega

theorem radial_spec (V : Env K) {S : ℕ} {h : K} {co : View K} {pair : ℕ → ℕ → ℕ} (hg : GOk g nT NH c n X R) (hE : RadX h co S pair g)
    {r rd : View K} (hr : Twin r rd [S] g.Ex) {φ φ' : ℕ → ℕ → K} (hc : RadOkK h co S pair g c R φ φ') {il : View ℕ}
    (hil : iList V g.nn g.N g.r.length = some il) :
    ∃ r' rd', V.L.launch2 (radialK h co S pair g.types g.ntypes il g.r (fun b => if b then rd.ext else r.ext)) r rd = some (r', rd') ∧
      Twin r' rd' [S] g.Ex ∧ G2 r' g.E S φ ∧ G2 rd' g.E S φ' := by
  obtain ⟨il', h1, h2, h0⟩ := iList_spec V hg.nn (Ex := g.r.length) hg.le
  rw [hil, Option.some.injEq] at h1
  subst h1
  have hin : ∀ i < g.N, ∀ e ∈ edges g.nn i, locate h pair g.types g.ntypes il g.r e
      = some (pair (c.typ i) (c.nty e), (truncInt (R e / h)).toNat, R e - h * truncInt (R e / h)) := by
    intro i hi e he
    obtain ⟨h3, h4⟩ := hc i hi e he
    obtain ⟨j, hj, hje⟩ := (mem_edges (hg.nn i hi)).mp he
    have he' : e < g.E := by rw [hje]; exact off_add_lt hi (hg.nn i hi) hj
    unfold locate
    rw [show il.get [e] = some i by rw [hje]; exact h2 i hi j hj, hg.ntypes e he', hg.r_get he']
    simp only [Option.bind_eq_bind, Option.bind_some]
    rw [hg.types i hi, Option.bind_some, if_neg (by omega)]
  have hloc : ∀ e < g.Ex, ∃ l, locate h pair g.types g.ntypes il g.r e = some l ∧ ∀ k < S, ∃ q, coeffs co l.1 l.2.1 k = some q := by
    intro e he
    by_cases he' : e < g.E
    · obtain ⟨i, hi, hmem⟩ := exists_owner (nn := g.nn) he'
      refine ⟨_, hin i hi e hmem, fun k hk => ?_⟩
      obtain ⟨c0, c1, c2, c3, h5, -⟩ := (hc i hi e hmem).2 k hk
      exact ⟨_, h5⟩
    · obtain ⟨t0, te, x, e1, e2, e3, e4, e5⟩ := hE e (not_lt.mp he') he
      refine ⟨(pair t0 te, (truncInt (x / h)).toNat, x - h * truncInt (x / h)), ?_, e5⟩
      unfold locate
      rw [show il.get [e] = some 0 from h0 e (not_lt.mp he') he, e2, e3]
      simp only [Option.bind_eq_bind, Option.bind_some]
      rw [e1, Option.bind_some, if_neg (by omega)]
  let val : Bool → ℕ → ℕ → K := fun b e k =>
    ((locate h pair g.types g.ntypes il g.r e).bind (fun l => (coeffs co l.1 l.2.1 k).map (fun q =>
      let x := l.2.2
      if b then q.2.1 + q.2.2.1 * (2 * x) + q.2.2.2 * (3 * (x * x)) else q.1 + q.2.1 * x + q.2.2.1 * (x * x) + q.2.2.2 * (x * x * x)))).getD 0
  have hp : ∀ E, Lc E (radialK h co S pair g.types g.ntypes il g.r E)
      (ex g.r.length fun e => ex S fun k => {(false, [e, k])} ∪ {(true, [e, k])}) (fun c _ => d2 (val c.1) c.2) := by
    intro E
    refine Lc.parFor (fun e he => ?_) ?_
    · obtain ⟨l, hl, hq⟩ := hloc e he
      refine Lc.opt hl (Lc.parFor (fun k hk => ?_) ?_)
      · obtain ⟨⟨c0, c1, c2, c3⟩, h5⟩ := hq k hk
        refine Lc.opt h5 (Lc.seqDisj (Lc.put (fun x => ?_)) (Lc.put (fun x => ?_)) (by simp))
        · show val false e k = _
          simp only [val, hl, Option.bind_some, h5, Option.map_some, Option.getD_some, Bool.false_eq_true, if_false]
        · show val true e k = _
          simp only [val, hl, Option.bind_some, h5, Option.map_some, Option.getD_some, if_true]
      · apart
    · apart
  obtain ⟨v', w', k1, ⟨k2, k3⟩, ⟨k4, k5⟩, ⟨k6, k7⟩, -⟩ := launch2_any V.L (v := r) (w := rd) (hp _)
    (by
      rintro c ⟨e, he, k, hk, h | h⟩ <;> simp only [Set.mem_singleton_iff, Prod.mk.injEq, true_and, reduceCtorEq, false_and, Bool.false_eq_true] at h
      subst h
      exact hr.1.has2 he hk)
    (by
      rintro c ⟨e, he, k, hk, h | h⟩ <;> simp only [Set.mem_singleton_iff, Prod.mk.injEq, true_and, reduceCtorEq, false_and, Bool.true_eq_false] at h
      subst h
      exact hr.2.1.has2 he hk)
  refine ⟨v', w', k1, hr.of_ext k2 k3 (k4 hr.1.1) (k5 hr.2.1.1), fun e he k hk => ?_, fun e he k hk => ?_⟩
  · have he' : e < g.Ex := he.trans_le hg.le
    obtain ⟨x, hx⟩ := hr.1.has2 he' hk
    rw [k6 _ _ ⟨e, he', k, hk, Or.inl rfl⟩ hx]
    obtain ⟨i, hi, hmem⟩ := exists_owner (nn := g.nn) he
    obtain ⟨c0, c1, c2, c3, h5, h6, -⟩ := (hc i hi e hmem).2 k hk
    congr 1
    show val false e k = _
    rw [h6]
    simp only [val, hin i hi e hmem, Option.bind_some, h5, Option.map_some, Option.getD_some, Bool.false_eq_true, if_false]
  · have he' : e < g.Ex := he.trans_le hg.le
    obtain ⟨x, hx⟩ := hr.2.1.has2 he' hk
    rw [k7 _ _ ⟨e, he', k, hk, Or.inr rfl⟩ hx]
    obtain ⟨i, hi, hmem⟩ := exists_owner (nn := g.nn) he
    obtain ⟨c0, c1, c2, c3, h5, -, h7⟩ := (hc i hi e hmem).2 k hk
    congr 1
    show val true e k = _
    rw [h7]
    simp only [val, hin i hi e hmem, Option.bind_some, h5, Option.map_some, Option.getD_some, if_true]

theorem computeR0_spec (V : Env K) {C lmax nT' : ℕ} {h : K} {co : View K} (hg : GOk g nT NH c n X R)
    (hE : RadX h co ((lmax + 1) * C) (fun a b => a * nT' + b) g)
    {r rd : View K} (hr : Twin r rd [(lmax + 1) * C] 0) {φ φ' : ℕ → ℕ → K}
    (hc : RadOkK h co ((lmax + 1) * C) (fun a b => a * nT' + b) g c R φ φ') :
    ∃ r' rd', computeR0 V C lmax nT' h co g r rd = some (r', rd') ∧
      Twin r' rd' [(lmax + 1) * C] g.Ex ∧ G2 r' g.E ((lmax + 1) * C) φ ∧ G2 rd' g.E ((lmax + 1) * C) φ' := by
  obtain ⟨il, h1, -⟩ := iList_spec V hg.nn (Ex := g.r.length) hg.le
  unfold computeR0
  dsimp only
  rw [h1]
  exact radial_spec V hg hE (hr.grow g.r.length) hc h1

theorem computeRadial_spec (V : Env K) {S : ℕ} {s : RadialSet K} (hS : s.numFun = S) (hg : GOk g nT NH c n X R)
    (hE : RadX s.h s.c S (pairIndex (uniqueTypes s.numTypes)) g)
    {r rd : View K} (hr : Twin r rd [S] 0) {φ φ' : ℕ → ℕ → K}
    (hc : RadOkK s.h s.c S (pairIndex (uniqueTypes s.numTypes)) g c R φ φ') :
    ∃ r' rd', computeRadial V S s g r rd = some (r', rd') ∧ Twin r' rd' [S] g.Ex ∧ G2 r' g.E S φ ∧ G2 rd' g.E S φ' := by
  obtain ⟨il, h1, -⟩ := iList_spec V hg.nn (Ex := g.r.length) hg.le
  unfold computeRadial RadialSet.evaluate
  dsimp only
  rw [h1, hS]
  exact radial_spec V hg hE (hr.grow g.r.length) hc h1

theorem computeScaled_spec (V : Env K) {C M : ℕ} {s : RadialSet K} (hS : s.numFun = 1) (hg : GOk g nT NH c n X R)
    (hE : RadX s.h s.c 1 (pairIndex (uniqueTypes s.numTypes)) g)
    {sv sd A : View K} (hr : Twin sv sd [1] 0) {φ φ' sc : ℕ → K}
    (hc : RadOkK s.h s.c 1 (pairIndex (uniqueTypes s.numTypes)) g c R (fun e _ => φ e) (fun e _ => φ' e))
    (hsc : ∀ i < g.N, sc i = 1 + ∑ e ∈ edges g.nn i, φ e) (hA : Room A [M, C] g.N) :
    ∃ sv' sd' A', computeScaled V C M s g sv sd A = some (sv', sd', A') ∧ Twin sv' sd' [1] g.Ex ∧
      (∀ e < g.E, sv'.get [e, 0] = some (φ e)) ∧ (∀ e < g.E, sd'.get [e, 0] = some (φ' e)) ∧ Room A' [M, C] g.N ∧
      ∀ F, G3 A g.N M C F → G3 A' g.N M C (fun i lm k => F i lm k / sc i) := by
  obtain ⟨sv', sd', h1, h2, h3, h4⟩ := computeRadial_spec V hS hg hE hr hc
  have h3' : ∀ e < g.E, sv'.get [e, 0] = some (φ e) := fun e he => h3 e he 0 (by omega)
  obtain ⟨A', h5, h6, h7⟩ := scaled_spec V (C := C) (M := M) hg h3' hsc hA
  refine ⟨sv', sd', A', ?_, h2, h3', fun e he => h4 e he 0 (by omega), h6, h7⟩
  unfold computeScaled
  rw [h1, firstNeigh_spec V (nlen hg)]
  simp only [Option.bind_eq_bind, Option.bind_some]
  rw [h5]
  rfl

end radial

/-! ## Harmonics -/

section harmonics
variable {K : Type} [Field K]
  {g : Graph K} {nT NH : ℕ} {c : Spec.Conf K} {n : ℕ → ℕ} {X : ℕ → ℕ → K} {R : ℕ → K}

theorem sphValues_big {M num : ℕ} (sph : K → K → K → ℕ → K) {Z : ℕ → ℕ → K} {sh : List K} (hsh : ∀ e < num, ∀ a < 3, sh[3 * e + a]? = some (Z e a))
    {b : List K} (hb : num * M ≤ b.length) : ∃ b', sphValues M sph num sh b = some b' ∧ b'.length = b.length ∧
      ∀ e < num, ∀ lm < M, b'[e * M + lm]? = some (sph (Z e 0) (Z e 1) (Z e 2) lm) := by
  have h : Wr b.length (sphValues M sph num sh) (fun p => ∃ i < num, ∃ lm < M, p = i * M + lm)
      (fun p => sph (Z (p / M) 0) (Z (p / M) 1) (Z (p / M) 2) (p % M)) := by
    refine Writes.loop (fun i hi => Writes.loop (fun lm hlm => ?_))
    have r := hsh i hi
    refine Writes.bindRead (r 0 (by omega)) (Writes.bindRead (r 1 (by omega)) (Writes.bindRead (r 2 (by omega)) ?_))
    exact Wr.wr ((flat_lt hi hlm).trans_le hb) (by rw [flat_div hlm, flat_mod hlm])
  obtain ⟨b', h1, h2, h3⟩ := h b rfl
  refine ⟨b', h1, h2, fun e he lm hlm => ?_⟩
  refine ((h3 _).1 ⟨e, he, lm, hlm, rfl⟩).trans ?_
  dsimp only
  rw [flat_div hlm, flat_mod hlm]

theorem row3_lt {M num e a lm : ℕ} (he : e < num) (ha : a < 3) (hlm : lm < M) : (3 * e + a) * M + lm < 3 * num * M :=
  flat_lt (by omega) hlm

theorem row3_dec {M e a lm : ℕ} (ha : a < 3) (hlm : lm < M) : ((3 * e + a) * M + lm) / M / 3 = e ∧ ((3 * e + a) * M + lm) / M % 3 = a ∧
    ((3 * e + a) * M + lm) % M = lm := by
  rw [flat_div hlm, flat_mod hlm]
  omega

theorem sphGrads_big {M num : ℕ} (dsph : K → K → K → ℕ → ℕ → K) {Z : ℕ → ℕ → K} {sh : List K}
    (hsh : ∀ e < num, ∀ a < 3, sh[3 * e + a]? = some (Z e a)) {b : List K} (hb : 3 * num * M ≤ b.length) :
    ∃ b', sphGrads M dsph num sh b = some b' ∧ b'.length = b.length ∧
      ∀ e < num, ∀ a < 3, ∀ lm < M, b'[(3 * e + a) * M + lm]? = some (dsph (Z e 0) (Z e 1) (Z e 2) a lm) := by
  have h : Wr b.length (sphGrads M dsph num sh) (fun p => ∃ i < num, ∃ a < 3, ∃ lm < M, p = (3 * i + a) * M + lm)
      (fun p => dsph (Z (p / M / 3) 0) (Z (p / M / 3) 1) (Z (p / M / 3) 2) (p / M % 3) (p % M)) := by
    refine Writes.loop (fun i hi => Writes.loop (fun a ha => Writes.loop (fun lm hlm => ?_)))
    have r := hsh i hi
    refine Writes.bindRead (r 0 (by omega)) (Writes.bindRead (r 1 (by omega)) (Writes.bindRead (r 2 (by omega)) ?_))
    rw [show 3 * i * M + a * M + lm = (3 * i + a) * M + lm by ring]
    exact Wr.wr ((row3_lt hi ha hlm).trans_le hb) (by
      obtain ⟨e1, e2, e3⟩ := row3_dec (e := i) ha hlm
      rw [e1, e2, e3])
  obtain ⟨b', h1, h2, h3⟩ := h b rfl
  refine ⟨b', h1, h2, fun e he a ha lm hlm => ?_⟩
  obtain ⟨e1, e2, e3⟩ := row3_dec (e := e) ha hlm
  refine ((h3 _).1 ⟨e, he, a, ha, lm, hlm, rfl⟩).trans ?_
  dsimp only
  rw [e1, e2, e3]

omit [Field K] in
theorem get_one {v : View K} {y p : ℕ} (hv : v.ext = [y]) (hp : p < y) : v.get [p] = v.data[p]? := by
  unfold View.get
  rw [hv, flat_one hp, Option.bind_some]

/-- `Y`, `Y_grad`, `Y_grad_shuffled` have lengths `y`, `3y`, `3y`. -/
def YOk (Y Yg Ygs : View K) (n : ℕ) : Prop := ∃ y, n ≤ y ∧ Y.ext = [y] ∧ Yg.ext = [3 * y] ∧ Ygs.ext = [3 * y] ∧ Y.Ok ∧ Yg.Ok ∧ Ygs.Ok

theorem shuffle_spec (L : Launcher K) {xyz : List K} {num : ℕ} {xs : View K} (hx : ∀ e < num, ∀ a < 3, xyz[3 * e + a]? = some (X e a))
    (hr : Room xs [] (3 * num)) : ∃ xs', L.launch1 (shuffleK xyz num (fun _ => xs.ext)) xs = some xs' ∧ Room xs' [] (3 * num) ∧
      ∀ e < num, ∀ a < 3, xs'.data[3 * e + a]? = some (if a = 0 then X e 2 else if a = 1 then X e 0 else X e 1) := by
  have hp : ∀ E, Lc E (shuffleK xyz num E) (ex num fun e => {((), [3 * e])} ∪ ({((), [3 * e + 1])} ∪ {((), [3 * e + 2])}))
      (fun c _ => d1 (fun p => if p % 3 = 0 then X (p / 3) 2 else if p % 3 = 1 then X (p / 3) 0 else X (p / 3) 1) c.2) := by
    intro E
    refine Lc.parFor (fun e he => Lc.seqDisj (Lc.opt (hx e he 2 (by omega)) (Lc.put (fun x => ?_)))
      (Lc.seqDisj (Lc.opt (hx e he 0 (by omega)) (Lc.put (fun x => ?_))) (Lc.opt (hx e he 1 (by omega)) (Lc.put (fun x => ?_))) (by simp))
      (by simp)) ?_
    · show (if 3 * e % 3 = 0 then X (3 * e / 3) 2 else _) = _
      rw [if_pos (by omega), show 3 * e / 3 = e by omega]
    · show (if (3 * e + 1) % 3 = 0 then _ else if (3 * e + 1) % 3 = 1 then X ((3 * e + 1) / 3) 0 else _) = _
      rw [if_neg (by omega), if_pos (by omega), show (3 * e + 1) / 3 = e by omega]
    · show (if (3 * e + 2) % 3 = 0 then _ else if (3 * e + 2) % 3 = 1 then _ else X ((3 * e + 2) / 3) 1) = _
      rw [if_neg (by omega), if_neg (by omega), show (3 * e + 2) / 3 = e by omega]
    · apart
  obtain ⟨v', h1, h2, h3, h4, -⟩ := launch1_any L (v := xs) (hp _) (by
    rintro c ⟨e, he, h⟩
    simp only [Set.mem_union, Set.mem_singleton_iff, Prod.mk.injEq, true_and] at h
    rcases h with rfl | rfl | rfl <;> exact hr.has1 (by omega))
  refine ⟨v', h1, hr.of_ext h2 (h3 hr.1), fun e he a ha => ?_⟩
  obtain ⟨x, hx', hle⟩ := hr.ext (by omega)
  rw [← get_one (h2.trans hx') (by omega)]
  obtain ⟨z, hz⟩ := hr.has1 (show 3 * e + a < 3 * num by omega)
  rw [h4 _ z ⟨e, he, by interval_cases a <;> simp⟩ hz]
  show some (if (3 * e + a) % 3 = 0 then X ((3 * e + a) / 3) 2 else if (3 * e + a) % 3 = 1 then X ((3 * e + a) / 3) 0 else X ((3 * e + a) / 3) 1) = _
  rw [show (3 * e + a) % 3 = a by omega, show (3 * e + a) / 3 = e by omega]

theorem scale_spec (L : Launcher K) {n : ℕ} {nrm : K} {v : View K} {y : ℕ} (hv : v.ext = [y]) (hok : v.Ok) (hn : n ≤ y) :
    ∃ v', L.launch1 (scaleK n nrm (fun _ => v.ext)) v = some v' ∧ v'.ext = [y] ∧ v'.Ok ∧
      ∀ p < n, ∀ x, v.get [p] = some x → v'.get [p] = some (x * nrm) := by
  obtain ⟨v', h1, h2, h3, h4, -⟩ := launch1_any L (v := v) (D := ex n fun p => {((), [p])}) (q := fun _ x => x * nrm)
    (Lc.parFor (fun p hp => Lc.upd (fun x => rfl)) (by apart)) (by
      rintro c ⟨p, hp, h⟩
      simp only [Set.mem_singleton_iff, Prod.mk.injEq, true_and] at h
      subst h
      exact View.exists_get hok (by rw [hv]; exact flat_one (by omega)))
  exact ⟨v', h1, h2.trans hv, h3 hok, fun p hp x hx => h4 _ _ ⟨p, hp, rfl⟩ hx⟩

theorem unshuffle_spec (L : Launcher K) {M num : ℕ} {old v : View K} {y : ℕ} (hv : v.ext = [y]) (hok : v.Ok) (hn : 3 * num * M ≤ y)
    {Z : ℕ → ℕ → ℕ → K} (ho : GD old num M Z) : ∃ v', L.launch1 (unshuffleK M num old (fun _ => v.ext)) v = some v' ∧ v'.ext = [y] ∧ v'.Ok ∧
      GD v' num M (fun e a lm => Z e (shufIx a) lm) := by
  have hp : ∀ E, Lc E (unshuffleK M num old E) (ex num fun e => ex M fun lm =>
      {((), [(3 * e + 0) * M + lm])} ∪ ({((), [(3 * e + 1) * M + lm])} ∪ {((), [(3 * e + 2) * M + lm])}))
      (fun c _ => d1 (fun p => Z (p / M / 3) (shufIx (p / M % 3)) (p % M)) c.2) := by
    intro E
    have val : ∀ e a lm, a < 3 → lm < M → d1 (fun p => Z (p / M / 3) (shufIx (p / M % 3)) (p % M)) [(3 * e + a) * M + lm] = Z e (shufIx a) lm := by
      intro e a lm ha hlm
      obtain ⟨e1, e2, e3⟩ := row3_dec (e := e) ha hlm
      show Z _ (shufIx _) _ = _
      rw [e1, e2, e3]
    refine Lc.parFor (fun e he => Lc.forDisj (fun lm hlm => ?_) ?_) ?_
    · rw [show 3 * e * M + 0 * M + lm = (3 * e + 0) * M + lm by ring, show 3 * e * M + 1 * M + lm = (3 * e + 1) * M + lm by ring,
        show 3 * e * M + 2 * M + lm = (3 * e + 2) * M + lm by ring]
      have hM : 0 < M := by omega
      refine Lc.seqDisj (Lc.opt (ho e he 1 (by omega) lm hlm) (Lc.put (fun x => val e 0 lm (by omega) hlm)))
        (Lc.seqDisj (Lc.opt (ho e he 2 (by omega) lm hlm) (Lc.put (fun x => val e 1 lm (by omega) hlm)))
          (Lc.opt (ho e he 0 (by omega) lm hlm) (Lc.put (fun x => val e 2 lm (by omega) hlm))) ?_) ?_
      · intro c hc hc'
        simp only [Set.mem_singleton_iff] at hc hc'
        subst hc
        simp at hc'
        omega
      · intro c hc hc'
        simp only [Set.mem_singleton_iff, Set.mem_union] at hc hc'
        subst hc
        simp at hc'
        omega
    · intro lm hlm lm' hlm' c hc hc'
      simp only [Set.mem_singleton_iff, Set.mem_union] at hc hc'
      have key : ∀ a a', ((3 * e + a) * M + lm) = ((3 * e + a') * M + lm') → lm = lm' := fun a a' h => ((flat_inj hlm hlm').mp h).2
      rcases hc with rfl | rfl | rfl <;> rcases hc' with h | h | h <;>
        simp only [Prod.mk.injEq, List.cons.injEq, and_true, true_and] at h <;> exact key _ _ h
    · rintro e he e' he' c ⟨lm, hlm, hc⟩ ⟨lm', hlm', hc'⟩
      simp only [Set.mem_singleton_iff, Set.mem_union] at hc hc'
      have key : ∀ a a', a < 3 → a' < 3 → ((3 * e + a) * M + lm) = ((3 * e' + a') * M + lm') → e = e' := fun a a' _ _ h => by
        have := ((flat_inj hlm hlm').mp h).1; omega
      rcases hc with rfl | rfl | rfl <;> rcases hc' with h | h | h <;>
        simp only [Prod.mk.injEq, List.cons.injEq, and_true, true_and] at h <;> exact key _ _ (by omega) (by omega) h
  have hh : ∀ e < num, ∀ a < 3, ∀ lm < M, ∃ x, v.get [(3 * e + a) * M + lm] = some x := fun e he a ha lm hlm =>
    View.exists_get hok (by rw [hv]; exact flat_one ((row3_lt he ha hlm).trans_le hn))
  obtain ⟨v', h1, h2, h3, h4, -⟩ := launch1_any L (v := v) (hp _) (by
    rintro c ⟨e, he, lm, hlm, h⟩
    simp only [Set.mem_union, Set.mem_singleton_iff, Prod.mk.injEq, true_and] at h
    rcases h with rfl | rfl | rfl <;> exact hh e he _ (by omega) lm hlm)
  refine ⟨v', h1, h2.trans hv, h3 hok, fun e he a ha lm hlm => ?_⟩
  obtain ⟨x, hx⟩ := hh e he a ha lm hlm
  rw [h4 _ x ⟨e, he, lm, hlm, by interval_cases a <;> simp⟩ hx]
  obtain ⟨e1, e2, e3⟩ := row3_dec (e := e) ha hlm
  show some (Z _ (shufIx _) _) = _
  rw [e1, e2, e3]

theorem computeY_spec (V : Env K) {M num : ℕ} {sph : K → K → K → ℕ → K} {dsph : K → K → K → ℕ → ℕ → K} {nrm : K} {xyz : List K}
    (hl : xyz.length = num * 3) (hx : ∀ e < num, ∀ a < 3, xyz[3 * e + a]? = some (X e a)) {Y Yg xs Ygs : View K} (hY : YOk Y Yg Ygs 0)
    (hxs : Room xs [] 0) : ∃ Y' Yg' xs' Ygs', computeY V M sph dsph nrm xyz Y Yg xs Ygs = some (Y', Yg', xs', Ygs') ∧
      YOk Y' Yg' Ygs' (num * M) ∧ Room xs' [] (3 * num) ∧ GF Y' num M (fun e lm => sph (X e 2) (X e 0) (X e 1) lm * nrm) ∧
      GD Yg' num M (fun e a lm => dsph (X e 2) (X e 0) (X e 1) (shufIx a) lm * nrm) := by
  obtain ⟨y, -, y1, y2, y3, y4, y5, y6⟩ := hY
  obtain ⟨xs', s1, s2, s3⟩ := shuffle_spec V.L hx (hxs.grow (3 * num))
  obtain ⟨y', hy', e1, e2, e3, o3⟩ : ∃ y', num * M ≤ y' ∧ (if Y.extent 0 < num * M then View.new [num * M] 0 else Y).ext = [y'] ∧
      (if Y.extent 0 < num * M then View.new [3 * num * M] 0 else Yg).ext = [3 * y'] ∧ (grow Ygs (3 * num * M) []).ext = [3 * y'] ∧
      (grow Ygs (3 * num * M) []).Ok := by
    have hy : Y.extent 0 = y := by unfold View.extent; rw [y1]; rfl
    have hys : Ygs.extent 0 = 3 * y := by unfold View.extent; rw [y3]; rfl
    unfold grow
    rw [hy, hys, mul_assoc]
    by_cases hlt : y < num * M
    · rw [if_pos hlt, if_pos hlt, if_pos (by omega)]
      exact ⟨num * M, le_rfl, rfl, rfl, rfl, View.new_ok _ _⟩
    · rw [if_neg hlt, if_neg hlt, if_neg (by omega)]
      exact ⟨y, by omega, y1, y2, y3, y6⟩
  obtain ⟨bY, b1, b2, b3⟩ := sphValues_big (M := M) sph s3 (b := tab [y'].prod (V.junk 0)) (by simp; omega)
  obtain ⟨bG, c1, c2, c3⟩ := sphGrads_big (M := M) dsph s3 (b := tab [3 * y'].prod (V.junk 1)) (by simp; rw [mul_assoc]; omega)
  have hbG : ∀ p, p < 3 * y' → (⟨[3 * y'], bG⟩ : View K).get [p] = bG[p]? := fun p hp => get_one rfl hp
  have lG : bG.length = [3 * y'].prod := by rw [c2]; simp
  have lY : bY.length = [y'].prod := by rw [b2]; simp
  have hle : 3 * num * M ≤ 3 * y' := by rw [mul_assoc]; omega
  obtain ⟨Yg1, u1, u2, u3, u4⟩ := unshuffle_spec V.L (M := M) (num := num) (old := ⟨[3 * y'], bG⟩) (v := ⟨[3 * y'], bG⟩) rfl lG hle
    (Z := fun e a lm => dsph (X e 2) (X e 0) (X e 1) a lm)
    (fun e he a ha lm hlm => by rw [hbG _ ((row3_lt he ha hlm).trans_le hle), c3 e he a ha lm hlm]; rfl)
  obtain ⟨Y2, v1, v2, v3, v4⟩ := scale_spec V.L (n := num * M) (nrm := nrm) (v := ⟨[y'], bY⟩) rfl lY hy'
  obtain ⟨Yg2, w1, w2, w3, w4⟩ := scale_spec V.L (n := 3 * num * M) (nrm := nrm) u2 u3 hle
  refine ⟨Y2, Yg2, xs', ⟨[3 * y'], bG⟩, ?_, ⟨y', hy', v2, w2, rfl, v3, w3, lG⟩, s2, fun e he lm hlm => ?_, fun e he a ha lm hlm => ?_⟩
  · unfold computeY
    rw [show xyz.length / 3 = num by omega]
    dsimp only
    rw [s1]
    simp only [Option.bind_eq_bind, Option.bind_some]
    rw [e1, e2, b1, Option.bind_some, c1, Option.bind_some]
    unfold deepCopy
    rw [e3, if_pos rfl, Option.bind_some, u1, Option.bind_some, v1, Option.bind_some, w1, Option.bind_some]
  · refine v4 _ (flat_lt he hlm) _ ?_
    rw [get_one rfl ((flat_lt he hlm).trans_le hy'), b3 e he lm hlm]
    rfl
  · exact w4 _ (row3_lt he ha hlm) _ (u4 e he a ha lm hlm)

end harmonics

end Verif.Kokkos
