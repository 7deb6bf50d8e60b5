import Verif.Lemmas.Kokkos.HostSeq
import Verif.Lemmas.Kokkos.LoadRadial
import Verif.Lemmas.Kokkos.Products
import Verif.Lemmas.PolyGraph

/-! # Tables of the product bases and of the linear maps, as loaded -/

namespace Verif.Kokkos
open Verif.MACE Verif.Poly

section views
variable {K : Type}

/-- A view of rank 3 filled by three nested loops. -/
theorem fill3 [Zero K] {nA nB nC : ℕ} {val : ℕ → ℕ → ℕ → Option K} {x : ℕ → ℕ → ℕ → K}
    (h : ∀ a < nA, ∀ b < nB, ∀ c < nC, val a b c = some (x a b c)) {v : View K} (he : v.ext = [nA, nB, nC]) (hv : v.Ok) :
    ∃ w, Verif.loop nA (fun a => Verif.loop nB (fun b => Verif.loop nC (fun c v => (val a b c).bind (fun y => v.set [a, b, c] y)))) v = some w ∧
      w.ext = [nA, nB, nC] ∧ w.Ok ∧ ∀ a < nA, ∀ b < nB, ∀ c < nC, w.get [a, b, c] = some (x a b c) := by
  obtain ⟨w, k1, k2, k3, k4⟩ := Tr.run (E := [nA, nB, nC]) (D := un nA fun a => un nB fun b => un nC fun c => {[a, b, c]}) (g := d3 x)
    (B := Verif.loop nA (fun a => Verif.loop nB (fun b => Verif.loop nC (fun c v => (val a b c).bind (fun y => v.set [a, b, c] y))))) (by
      intro f
      refine Tr.loop (fun a ha => Tr.loop (fun b hb => Tr.loop (fun c hc => ?_) ?_) ?_) ?_
      · exact Tr.opt (h a ha b hb c hc) (Tr.set (flat_three ha hb hc) rfl)
      all_goals
        intro i _ j _ hij
        refine disj_cells (fun c => ?_)
        simp only [mem_un, Set.mem_singleton_iff]
        grind) he hv (by
      rintro c ⟨a, ha, b, hb, d, hd, rfl⟩
      exact ⟨_, flat_three ha hb hd⟩)
  exact ⟨w, k1, k2, k3, fun a ha b hb c hc => k4 _ ⟨a, ha, b, hb, c, hc, rfl⟩⟩

/-- A view of rank 2 filled by two nested loops. -/
theorem fill2 [Zero K] {nA nB : ℕ} {val : ℕ → ℕ → Option K} {x : ℕ → ℕ → K}
    (h : ∀ a < nA, ∀ b < nB, val a b = some (x a b)) {v : View K} (he : v.ext = [nA, nB]) (hv : v.Ok) :
    ∃ w, Verif.loop nA (fun a => Verif.loop nB (fun b v => (val a b).bind (fun y => v.set [a, b] y))) v = some w ∧
      w.ext = [nA, nB] ∧ w.Ok ∧ ∀ a < nA, ∀ b < nB, w.get [a, b] = some (x a b) := by
  obtain ⟨w, k1, k2, k3, k4⟩ := Tr.run (E := [nA, nB]) (D := un nA fun a => un nB fun b => {[a, b]}) (g := d2 x)
    (B := Verif.loop nA (fun a => Verif.loop nB (fun b v => (val a b).bind (fun y => v.set [a, b] y)))) (by
      intro f
      refine Tr.loop (fun a ha => Tr.loop (fun b hb => ?_) ?_) ?_
      · exact Tr.opt (h a ha b hb) (Tr.set (flat_two ha hb) rfl)
      all_goals
        intro i _ j _ hij
        refine disj_cells (fun c => ?_)
        simp only [mem_un, Set.mem_singleton_iff]
        grind) he hv (by
      rintro c ⟨a, ha, b, hb, rfl⟩
      exact ⟨_, flat_two ha hb⟩)
  exact ⟨w, k1, k2, k3, fun a ha b hb => k4 _ ⟨a, ha, b, hb, rfl⟩⟩

theorem specView_spec (ij : ℕ → ℕ) (es : List (ℕ × ℕ)) :
    ∃ v, specView ij es = some v ∧ v.ext = [es.length, 2] ∧ ∀ p e, es[p]? = some e → v.get [p, 0] = some e.1 ∧ v.get [p, 1] = some e.2 := by
  obtain ⟨w, k1, k2, k3, k4⟩ := Tr.run (E := [es.length, 2]) (D := un es.length fun p => {[p, 0]} ∪ {[p, 1]})
    (g := d2 fun p s => if s = 0 then (es[p]?.getD (0, 0)).1 else (es[p]?.getD (0, 0)).2) (v := uninit ij [es.length, 2])
    (B := Verif.loop es.length (fun p v => do
      let e ← es[p]?
      let v ← v.set [p, 0] e.1
      v.set [p, 1] e.2)) (by
      intro f
      refine Tr.loop (fun p hp => ?_) ?_
      · have e : es[p]? = some es[p] := List.getElem?_eq_getElem hp
        simp only [Option.bind_eq_bind]
        refine Tr.opt e (Tr.disj (Tr.set (flat_two hp (by omega)) ?_) (Tr.set (flat_two hp (by omega)) ?_) (by simp))
        · simp [d2, e]
        · simp [d2, e]
      · intro i _ j _ hij
        refine disj_cells (fun c => ?_)
        simp only [Set.mem_union, Set.mem_singleton_iff]
        grind) rfl (uninit_ok _ _) (by
      rintro c ⟨p, hp, rfl | rfl⟩
      · exact ⟨_, flat_two hp (by omega)⟩
      · exact ⟨_, flat_two hp (by omega)⟩)
  refine ⟨w, k1, k2, fun p e he => ?_⟩
  have hp : p < es.length := (List.getElem?_eq_some_iff.mp he).1
  refine ⟨?_, ?_⟩
  · rw [k4 _ ⟨p, hp, Or.inl rfl⟩]; simp [d2, he]
  · rw [k4 _ ⟨p, hp, Or.inr rfl⟩]; simp [d2, he]

theorem monomialsView_some {n : ℕ} {mo : List (List ℕ)} (hn : n ≤ mo.length) (h3 : ∀ m ∈ mo, m.length ≤ 3) :
    ∃ v, monomialsView n mo = some v := by
  obtain ⟨w, k1, -⟩ := loop_inv (n := n) (body := fun i (v : View ℤ) => do
      let m ← mo[i]?
      Verif.loop m.length (fun j v => do
        let x ← m[j]?
        v.set [i, j] (x : ℤ)) v) (s := View.new [n, 3] (-1)) (fun _ v => v.ext = [n, 3] ∧ v.Ok) ⟨rfl, View.new_ok _ _⟩ (by
      rintro i hi v ⟨h1, h2⟩
      have e : mo[i]? = some mo[i] := List.getElem?_eq_getElem (by omega)
      rw [e]
      obtain ⟨w, l1, l2⟩ := loop_inv (n := mo[i].length) (body := fun j (v : View ℤ) => do
          let x ← mo[i][j]?
          v.set [i, j] (x : ℤ)) (s := v) (fun _ v => v.ext = [n, 3] ∧ v.Ok) ⟨h1, h2⟩ (by
          rintro j hj v ⟨h1, h2⟩
          rw [List.getElem?_eq_getElem hj]
          obtain ⟨w, l1, l2, l3, -⟩ := View.set_spec h2 (is := [i, j]) (p := i * 3 + j)
            (by rw [h1]; exact flat_two hi (by have := h3 mo[i] (List.getElem_mem _); omega)) ((mo[i][j] : ℕ) : ℤ)
          exact ⟨w, l1, by rw [l2, h1], l3⟩)
      exact ⟨w, l1, l2⟩)
  exact ⟨w, k1⟩

end views

section poly
variable {K : Type} [Field K]

theorem M0coeffView_spec {srt : List (List (List ℕ)) → List (List (List ℕ))} {junk : ℕ → K} {nT C M n : ℕ} {ws : ℕ → ℕ → List K}
    {mo : List (List ℕ)} {P0 : Poly K} {P : ℕ → ℕ → Poly K} (h0 : Poly.mk? srt M (ws 0 0) mo = some P0)
    (hn0 : P0.nodeCoefficients.length = n) (h : ∀ a < nT, ∀ k < C, Poly.mk? srt M (ws a k) mo = some (P a k))
    (hn : ∀ a < nT, ∀ k < C, (P a k).nodeCoefficients.length = n) :
    ∃ v, M0coeffView srt junk nT C M ws mo = some v ∧ v.ext = [nT, n, C] ∧
      ∀ a < nT, ∀ p < n, ∀ k < C, v.get [a, p, k] = some ((P a k).nodeCoefficients[p]?.getD 0) := by
  obtain ⟨w, k1, k2, k3, k4⟩ := Tr.run (E := [nT, n, C]) (D := un nT fun a => un C fun k => un n fun p => {[a, p, k]})
    (g := d3 fun a p k => (P a k).nodeCoefficients[p]?.getD 0) (v := uninit junk [nT, n, C])
    (B := Verif.loop nT (fun a => Verif.loop C (fun k v => do
      let P ← Poly.mk? srt M (ws a k) mo
      Verif.loop P.nodeCoefficients.length (fun p v => do
        let x ← P.nodeCoefficients[p]?
        v.set [a, p, k] x) v))) (by
      intro f
      refine Tr.loop (fun a ha => Tr.loop (fun k hk => ?_) ?_) ?_
      · refine Tr.opt (h a ha k hk) ?_
        rw [hn a ha k hk]
        refine Tr.loop (fun p hp => ?_) ?_
        · have e : (P a k).nodeCoefficients[p]? = some ((P a k).nodeCoefficients[p]'(by rw [hn a ha k hk]; exact hp)) :=
            List.getElem?_eq_getElem _
          exact Tr.opt e (Tr.set (flat_three ha hp hk) (by simp [d3, e]))
        · intro i _ j _ hij
          refine disj_cells (fun c => ?_)
          simp only [mem_un, Set.mem_singleton_iff]
          grind
      all_goals
        intro i _ j _ hij
        refine disj_cells (fun c => ?_)
        simp only [mem_un, Set.mem_singleton_iff]
        grind) rfl (uninit_ok _ _) (by
      rintro c ⟨a, ha, k, hk, p, hp, rfl⟩
      exact ⟨_, flat_three ha hp hk⟩)
  refine ⟨w, ?_, k2, fun a ha p hp k hk => k4 _ ⟨a, ha, k, hk, p, hp, rfl⟩⟩
  unfold M0coeffView
  rw [h0]
  simp only [Option.bind_eq_bind, Option.bind_some]
  rw [hn0]
  exact k1

/-- The two tables of one product. -/
theorem kpoly_of {srt : List (List (List ℕ)) → List (List (List ℕ))} (hs : SortFn srt) {nT C M : ℕ} {ws : ℕ → ℕ → List K}
    {mo : List (List ℕ)} (hlen : ∀ a < nT, ∀ k < C, (ws a k).length = mo.length) (hnd : mo.Nodup) (hne : ∀ m ∈ mo, m ≠ [])
    (hr : ∀ m ∈ mo, ∀ v ∈ m, v < M) (hT : 0 < nT) (hC : 0 < C) :
    ∃ (P : ℕ → ℕ → Poly K) (n : ℕ), (∀ a < nT, ∀ k < C, Poly.mk? srt M (ws a k) mo = some (P a k) ∧ (P a k).nodeCoefficients.length = n ∧
        (P a k).edges = (P 0 0).edges) ∧ n = M + (P 0 0).edges.length ∧
      ∀ (ij : ℕ → ℕ) (spec : View ℕ) (coeff : View K), specView ij (P 0 0).edges = some spec → coeff.ext = [nT, n, C] →
        (∀ a < nT, ∀ p < n, ∀ k < C, coeff.get [a, p, k] = some ((P a k).nodeCoefficients[p]?.getD 0)) →
        spec.extent 0 = (P 0 0).edges.length ∧
        KPoly nT M C ws mo spec coeff (fun q => (P 0 0).nodes[q]?.getD []) (fun a q k => (P a k).nodeCoefficients[q]?.getD 0) := by
  have hex : ∀ a k, ∃ P, a < nT → k < C → Poly.mk? srt M (ws a k) mo = some P := by
    intro a k
    by_cases hak : a < nT ∧ k < C
    · obtain ⟨P, h1, -⟩ := mk?_spec hs M (ws a k) mo (hlen a hak.1 k hak.2) hnd hne hr
      exact ⟨P, fun _ _ => h1⟩
    · obtain ⟨P, h1, -⟩ := mk?_spec hs M (ws 0 0) mo (hlen 0 hT 0 hC) hnd hne hr
      exact ⟨P, fun h1 h2 => absurd ⟨h1, h2⟩ hak⟩
  choose P hP using hex
  have hgr : ∀ a < nT, ∀ k < C, (P a k).nodes = (P 0 0).nodes ∧ (P a k).edges = (P 0 0).edges := fun a ha k hk =>
    mk?_graph (hP a k ha hk) (hP 0 0 hT hC)
  have hval : ∀ a < nT, ∀ k < C, Valid (P a k) ∧ (P a k).numVariables = M ∧ (∀ F : List ℕ → K, ∑ j ∈ Finset.range (P a k).nodes.length,
        ((P a k).nodeCoefficients[j]?.getD 0) * F ((P a k).nodes[j]?.getD []) = ((mo.zip (ws a k)).map (fun q => q.2 * F q.1)).sum) := by
    intro a ha k hk
    obtain ⟨P', h1, h2, h3, -, -, -, -, h4, -⟩ := mk?_spec hs M (ws a k) mo (hlen a ha k hk) hnd hne hr
    rw [hP a k ha hk, Option.some.injEq] at h1
    subst h1
    exact ⟨h2, h3, h4⟩
  obtain ⟨v0, nv0, -⟩ := hval 0 hT 0 hC
  have hn : (P 0 0).nodes.length = M + (P 0 0).edges.length := by rw [v0.len, nv0]
  refine ⟨P, M + (P 0 0).edges.length, fun a ha k hk => ⟨hP a k ha hk, ?_, (hgr a ha k hk).2⟩, rfl, ?_⟩
  · rw [(hval a ha k hk).1.clen, (hgr a ha k hk).1, hn]
  · intro ij spec coeff hspec hext hget
    obtain ⟨spec', e1, e2, e3⟩ := specView_spec ij (P 0 0).edges
    rw [hspec, Option.some.injEq] at e1
    subst e1
    have hx : spec.extent 0 = (P 0 0).edges.length := by unfold View.extent; rw [e2]; rfl
    refine ⟨hx, ⟨fun q hq => ?_, fun p hp => ?_⟩, ?_, ?_, fun t ht k hk F => ?_⟩
    · show ((P 0 0).nodes[q]?).getD [] = _
      rw [v0.var q (by rw [nv0]; exact hq)]
      rfl
    · obtain ⟨e, y, a, b, g1, g2, g3, g4, g5, g6, g7⟩ := v0.edge p (by rw [← hx]; exact hp)
      rw [nv0] at g2 g5 g6
      refine ⟨e.1, e.2, (e3 p e g1).1, (e3 p e g1).2, g5, g6, ?_⟩
      rw [g2, g3, g4]
      exact g7
    · unfold View.extent
      rw [hext, e2]
      rfl
    · rw [hx]
      exact hget
    · rw [hx, ← (hval t ht k hk).2.2 F, (hgr t ht k hk).1, hn]

end poly

end Verif.Kokkos
