import Verif.Lemmas.Kokkos.Linear
import Verif.Lemmas.MLP

/-! # The perceptron of the Kokkos evaluator -/

namespace Verif.Kokkos
open Par Prog

variable {K : Type} [Field K]

section kernel
variable {E : Bool × ℕ → List ℕ} {f g : (Bool × ℕ) × List ℕ → K}

/-- Contents of `node_values` and `node_derivatives`. -/
def St (v d : ℕ → ℕ → ℕ → K) : (Bool × ℕ) × List ℕ → K
  | ((b, l), [i, p]) => if b then d l i p else v l i p
  | _ => 0

/-- The cells of batch member `i`. -/
def mrow (n : ℕ → ℕ) (L i : ℕ) : Set ((Bool × ℕ) × List ℕ) := {c | ∃ b l p, l ≤ L ∧ p < n l ∧ c = ((b, l), [i, p])}

/-- Replace layer `l`. -/
def setL (l : ℕ) (x : ℕ → ℕ → K) (v : ℕ → ℕ → ℕ → K) : ℕ → ℕ → ℕ → K := fun l' i p => if l' = l then x i p else v l' i p

/-- Threads that write one entry each of a row and read another row. -/
theorem rowPar {m k i : ℕ} {t : ℕ → Prog (Bool × ℕ) K} {b0 b1 : Bool × ℕ} (hb : b0 ≠ b1) {D : Set ((Bool × ℕ) × List ℕ)}
    (hR : ∀ q < k, (b0, [i, q]) ∈ D) (hT : ∀ p < m, (b1, [i, p]) ∈ D)
    (ht : ∀ p < m, ∃ v, Jd E (t p) {(b1, [i, p])} {c | ∃ q < k, c = (b0, [i, q])} ∅ f v g (fun _ => 0))
    (hr : ∀ c ∈ D, (∀ p < m, c ≠ (b1, [i, p])) → g c = f c) : Ok E (parFor m t) D f [] g := by
  have hRT : ∀ c ∈ {c | ∃ q < k, c = ((b0, [i, q]) : (Bool × ℕ) × List ℕ)}, ∀ p, c ≠ (b1, [i, p]) := by
    rintro c ⟨q, _, rfl⟩ p h
    exact hb (congrArg Prod.fst h)
  have hfg : ∀ c ∈ {c | ∃ q < k, c = ((b0, [i, q]) : (Bool × ℕ) × List ℕ)}, g c = f c := by
    intro c hc
    refine hr c ?_ (fun p _ => hRT c hc p)
    obtain ⟨q, hq, rfl⟩ := hc
    exact hR q hq
  choose! V hV using ht
  have hj : Jd E (parFor m t) (ex m fun p => {(b1, [i, p])}) {c | ∃ q < k, c = (b0, [i, q])} ∅ f [] g (fun _ => 0) := by
    refine Jd.par (δ' := fun _ _ => 0) (δ2 := fun _ => 0) hV ?_ ?_ (fun _ _ _ _ h => h) (fun _ _ h => h) hfg (fun _ => trivial)
      (Jd.ret (fun _ _ => rfl) (fun _ h => h.elim)) (fun _ h => h.elim)
    · rintro p _ p' _ c rfl h
      simpa using h
    · rintro p _ c rfl h
      exact hRT _ h p rfl
  have ho := Jd.ok (h := g) hj (fun c hc ⟨p, _, h⟩ => hRT c hc p h) (fun _ h => h.elim) (fun _ _ h => h) (fun _ _ => rfl) hfg
    (fun _ h => h.elim)
  refine ho.frame ?_ (fun _ _ => rfl) (fun _ _ => rfl) (fun c hc hn => hr c hc (fun p hp h => hn (Or.inl (Or.inl ⟨p, hp, h⟩))))
  rintro c ((⟨p, hp, rfl⟩ | ⟨q, hq, rfl⟩) | h)
  · exact hT p hp
  · exact hR q hq
  · exact h.elim

/-- One row of a matrix-vector product. -/
theorem dotRow {k i p : ℕ} {b0 b1 : Bool × ℕ} (hb : b0 ≠ b1) {w : ℕ → Option K} {W : ℕ → K} (hw : ∀ q < k, w q = some (W q))
    (hg : g (b1, [i, p]) = f (b1, [i, p]) + ∑ q ∈ Finset.range k, W q * f (b0, [i, q])) :
    ∃ v, Jd E (forP k (fun q => opt (w q) (fun a => Prog.get E b0 [i, q] (fun x => plus E b1 [i, p] (a * x)))))
      {(b1, [i, p])} {c | ∃ q < k, c = (b0, [i, q])} ∅ f v g (fun _ => 0) := by
  classical
  have hne : ∀ q, (b0, [i, q]) ≠ ((b1, [i, p]) : (Bool × ℕ) × List ℕ) := fun q h => hb (congrArg Prod.fst h)
  obtain ⟨v, hv⟩ := Jd.forP (E := E) (n := k) (T := {(b1, [i, p])}) (R := {c | ∃ q < k, c = (b0, [i, q])}) (A := ∅)
    (t := fun q => opt (w q) (fun a => Prog.get E b0 [i, q] (fun x => plus E b1 [i, p] (a * x)))) (δ := fun _ => 0)
    (fun J c => if c = (b1, [i, p]) then f c + ∑ q ∈ Finset.range J, W q * f (b0, [i, q]) else f c) (δ' := fun _ _ => 0)
    (fun q hq => ⟨[], Jd.opt (hw q hq) (Jd.get (Or.inr ⟨q, hq, rfl⟩)
      (fun x => Confined.upd (fun _ h => mem_cells rfl h)) (Jd.of_ok (Ok.plus1 (by
        rw [if_pos rfl, if_pos rfl, if_neg (hne q), Finset.sum_range_succ, add_assoc])) (fun _ _ h => h) (fun _ h => h.elim)))⟩)
    (by rintro c ⟨q, _, rfl⟩ h; exact hne q h) (fun _ _ h => h)
    (by rintro J c ⟨q, _, rfl⟩; rw [if_neg (hne q), if_neg (hne q)]) (fun _ h => h.elim)
  refine ⟨v, hv.congr ?_ ?_ ?_ (fun _ h => h.elim)⟩
  · rintro c rfl; simp
  · rintro c ⟨q, _, rfl⟩; rw [if_neg (hne q)]
  · rintro c rfl; rw [if_pos rfl, hg]

/-- The same after setting the entry to `0`. -/
theorem dotRow0 {k i p : ℕ} {b0 b1 : Bool × ℕ} (hb : b0 ≠ b1) {w : ℕ → Option K} {W : ℕ → K} (hw : ∀ q < k, w q = some (W q))
    (hg : g (b1, [i, p]) = ∑ q ∈ Finset.range k, W q * f (b0, [i, q])) :
    ∃ v, Jd E (seq (put E b1 [i, p] 0) (forP k (fun q => opt (w q) (fun a => Prog.get E b0 [i, q] (fun x => plus E b1 [i, p] (a * x))))))
      {(b1, [i, p])} {c | ∃ q < k, c = (b0, [i, q])} ∅ f v g (fun _ => 0) := by
  classical
  have hne : ∀ q, (b0, [i, q]) ≠ ((b1, [i, p]) : (Bool × ℕ) × List ℕ) := fun q h => hb (congrArg Prod.fst h)
  obtain ⟨v, hv⟩ := dotRow (E := E) (f := fun c => if c = (b1, [i, p]) then 0 else f c) (g := g) hb hw (by
    rw [hg, if_pos rfl, zero_add]
    exact Finset.sum_congr rfl (fun q _ => by rw [if_neg (hne q)]))
  refine ⟨v, Jd.seq (δ1 := fun _ => 0) (δ2 := fun _ => 0)
    (Jd.of_ok (Ok.put1 (g := fun c => if c = (b1, [i, p]) then 0 else f c) (by rw [if_pos rfl])) (fun _ _ h => h) (fun _ h => h.elim)) hv
    ?_ (fun _ _ h => h) ?_ (fun _ h => h.elim)⟩
  · rintro c ⟨q, _, rfl⟩ h; exact hne q h
  · rintro c ⟨q, _, rfl⟩; exact if_neg (hne q)

end kernel

/-- The weights of a perceptron with `L` layers of widths `n`. -/
structure PerOk (s : Percep K) (L : ℕ) (n : ℕ → ℕ) (W : ℕ → ℕ → ℕ → K) : Prop where
  len : s.shape.length = L + 1
  shape : ∀ l ≤ L, s.shape[l]? = some (n l)
  e0 : ∀ l < L, (s.w l).extent 0 = n (l + 1)
  e1 : ∀ l < L, (s.w l).extent 1 = n l
  get : ∀ l < L, ∀ i < n (l + 1), ∀ j < n l, (s.w l).get [i, j] = some (W l i j)

section layers
variable {ex : K → K} {s : Percep K} {L : ℕ} {n : ℕ → ℕ} {W : ℕ → ℕ → ℕ → K} {E : Bool × ℕ → List ℕ} {v d : ℕ → ℕ → ℕ → K} {i l : ℕ}

theorem mem_mrow {b : Bool} {p : ℕ} (hl : l ≤ L) (hp : p < n l) : (((b, l), [i, p]) : (Bool × ℕ) × List ℕ) ∈ mrow n L i :=
  ⟨b, l, p, hl, hp, rfl⟩

theorem St_setL_v {x : ℕ → ℕ → K} {c : (Bool × ℕ) × List ℕ} (hc : c ∈ mrow n L i) (hn : ∀ p < n l, c ≠ ((false, l), [i, p])) :
    St (setL l x v) d c = St v d c := by
  obtain ⟨b, l', p, _, hp, rfl⟩ := hc
  cases b
  · refine if_neg ?_
    rintro rfl
    exact hn p hp rfl
  · rfl

theorem St_setL_d {x : ℕ → ℕ → K} {c : (Bool × ℕ) × List ℕ} (hc : c ∈ mrow n L i) (hn : ∀ p < n l, c ≠ ((true, l), [i, p])) :
    St v (setL l x d) c = St v d c := by
  obtain ⟨b, l', p, _, hp, rfl⟩ := hc
  cases b
  · rfl
  · refine if_neg ?_
    rintro rfl
    exact hn p hp rfl

theorem fwd_ok (h : PerOk s L n W) (hl : l + 1 ≤ L) (h0 : ∀ p < n (l + 1), v (l + 1) i p = 0) (last : Bool) :
    ∃ r, Ok E (fwdLayer ex s E i l last) (mrow n L i) (St v d) r
      (St (setL (l + 1) (fun i p => if last then MLP.pre n W v l i p else MLP.act ex s.scale (MLP.pre n W v l i p)) v) d) := by
  have h1 : Ok E (parFor ((s.w l).extent 0) (fun p => matRow E (s.w l) l i p)) (mrow n L i) (St v d) []
      (St (setL (l + 1) (MLP.pre n W v l) v) d) := by
    rw [h.e0 l (by omega)]
    refine rowPar (b0 := (false, l)) (b1 := (false, l + 1)) (k := n l) (by simp) (fun q hq => mem_mrow (by omega) hq)
      (fun p hp => mem_mrow hl hp) (fun p hp => ?_) (fun c hc hn => St_setL_v hc hn)
    unfold matRow
    rw [h.e1 l (by omega)]
    refine dotRow (W := W l p) (by simp) (fun q hq => h.get l (by omega) p hp q hq) ?_
    show (if l + 1 = l + 1 then MLP.pre n W v l i p else _) = v (l + 1) i p + _
    rw [if_pos rfl, h0 p hp, zero_add]
    rfl
  cases last
  · refine ⟨[], Ok.seq h1 (Ok.opt (h.shape (l + 1) hl) ?_)⟩
    refine rowPar (b0 := (true, l + 1)) (b1 := (false, l + 1)) (k := 0) (by simp) (fun q hq => by omega)
      (fun p hp => mem_mrow hl hp) (fun p hp => ⟨[], Jd.of_ok (Ok.upd1 ?_) (fun _ _ h => h) (fun _ h => h.elim)⟩)
      (fun c hc hn => ?_)
    · show (if l + 1 = l + 1 then _ else _) = s.scale * (if l + 1 = l + 1 then _ else _) / (1 + ex (-(if l + 1 = l + 1 then _ else _)))
      rw [if_pos rfl, if_pos rfl]
      rfl
    · rw [St_setL_v hc hn, St_setL_v hc hn]
  · refine ⟨[], Ok.seq h1 (Ok.ret (fun _ _ => rfl))⟩

theorem bwd_ok (h : PerOk s L n W) (hl : l + 1 ≤ L) :
    ∃ r, Ok E (bwdLayer ex s E i l) (mrow n L i) (St v d) r
      (St (setL (l + 1) (MLP.pre n W v l) v)
        (setL l (fun i p => ∑ q ∈ Finset.range (n (l + 1)), W l q p * (d (l + 1) i q * MLP.actD ex s.scale (MLP.pre n W v l i q)))
          (setL (l + 1) (fun i p => d (l + 1) i p * MLP.actD ex s.scale (MLP.pre n W v l i p)) d))) := by
  refine ⟨[], Ok.seq (v := []) (g := St (setL (l + 1) (MLP.pre n W v l) v) d) ?_ (Ok.seq (v := [])
    (g := St (setL (l + 1) (MLP.pre n W v l) v) (setL (l + 1) (fun i p => d (l + 1) i p * MLP.actD ex s.scale (MLP.pre n W v l i p)) d))
    (Ok.opt (h.shape (l + 1) hl) ?_) ?_)⟩
  · rw [h.e0 l (by omega)]
    refine rowPar (b0 := (false, l)) (b1 := (false, l + 1)) (k := n l) (by simp) (fun q hq => mem_mrow (by omega) hq)
      (fun p hp => mem_mrow hl hp) (fun p hp => ?_) (fun c hc hn => St_setL_v hc hn)
    unfold matRow
    rw [h.e1 l (by omega)]
    refine dotRow0 (W := W l p) (by simp) (fun q hq => h.get l (by omega) p hp q hq) ?_
    show (if l + 1 = l + 1 then MLP.pre n W v l i p else _) = _
    rw [if_pos rfl]
    rfl
  · refine rowPar (b0 := (false, l + 1)) (b1 := (true, l + 1)) (k := n (l + 1)) (by simp) (fun q hq => mem_mrow hl hq)
      (fun p hp => mem_mrow hl hp) (fun p hp => ⟨[], Jd.get (Or.inr ⟨p, hp, rfl⟩) (fun x => Confined.upd (fun _ h => mem_cells rfl h))
        (Jd.of_ok (Ok.upd1 ?_) (fun _ _ h => h) (fun _ h => h.elim))⟩) (fun c hc hn => St_setL_d hc hn)
    have e1 : St (setL (l + 1) (MLP.pre n W v l) v) d ((false, l + 1), [i, p]) = MLP.pre n W v l i p := if_pos rfl
    rw [e1]
    show (if l + 1 = l + 1 then _ else _) = _
    rw [if_pos rfl]
    rfl
  · rw [h.e1 l (by omega), h.e0 l (by omega)]
    refine rowPar (b0 := (true, l + 1)) (b1 := (true, l)) (k := n (l + 1)) (by simp) (fun q hq => mem_mrow hl hq)
      (fun p hp => mem_mrow (by omega) hp) (fun p hp => ?_) (fun c hc hn => St_setL_d hc hn)
    refine dotRow0 (W := fun q => W l q p) (by simp) (fun q hq => h.get l (by omega) q hq p hp) ?_
    refine (if_pos rfl).trans (Finset.sum_congr rfl (fun q _ => ?_))
    congr 1
    exact (if_pos rfl).symm

theorem St_congr {v' d' : ℕ → ℕ → ℕ → K} (hv : ∀ l ≤ L, ∀ p < n l, v' l i p = v l i p) (hd : ∀ l ≤ L, ∀ p < n l, d' l i p = d l i p) :
    ∀ c ∈ mrow n L i, St v' d' c = St v d c := by
  rintro c ⟨b, l, p, hl, hp, rfl⟩
  cases b
  · exact hv l hl p hp
  · exact hd l hl p hp

theorem pre_congr' {H H' : ℕ → ℕ → ℕ → K} (h : ∀ k < n l, H l i k = H' l i k) (p : ℕ) :
    MLP.pre n W H l i p = MLP.pre n W H' l i p :=
  Finset.sum_congr rfl (fun k hk => by rw [h k (Finset.mem_range.mp hk)])

/-- `node_values` after the forward pass. -/
def Hf (n : ℕ → ℕ) (W : ℕ → ℕ → ℕ → K) (L : ℕ) (H : ℕ → ℕ → ℕ → K) (l i p : ℕ) : K := if l = L then MLP.outF n W H L i p else H l i p

/-- `node_values` after `k` backward layers. -/
def vB (n : ℕ → ℕ) (W : ℕ → ℕ → ℕ → K) (L : ℕ) (H : ℕ → ℕ → ℕ → K) (k l i p : ℕ) : K :=
  if L - 1 - k < l ∧ l < L then MLP.pre n W H (l - 1) i p else Hf n W L H l i p

/-- `node_derivatives` after `k` backward layers. -/
def dB (n : ℕ → ℕ) (W AD : ℕ → ℕ → ℕ → K) (L : ℕ) (k l i p : ℕ) : K :=
  if l = L - 1 - k then MLP.Dk n W AD L k i p
  else if L - 1 - k < l ∧ l < L then MLP.Dk n W AD L (L - 1 - l) i p * AD l i p else 0

/-- Only the first output is used; `n'` are the widths with one output. -/
theorem percep_ok {B : ℕ} {H AD : ℕ → ℕ → ℕ → K} {n' : ℕ → ℕ} (h : PerOk s L n W) (hL : 1 ≤ L) (hn : n' L = 1)
    (hn' : ∀ l < L, n' l = n l) (hpos : 0 < n L)
    (hH : ∀ l b i, H (l + 1) b i = MLP.act ex s.scale (MLP.pre n W H l b i))
    (hAD : ∀ l b i, AD (l + 1) b i = MLP.actD ex s.scale (MLP.pre n W H l b i)) (hE : (E (true, L - 1)).getD 1 0 = n (L - 1)) :
    Ok E (percepK ex s B E) (Par.ex B (mrow n L)) (St (fun l i p => if l = 0 then H 0 i p else 0) (fun _ _ _ => 0)) []
      (St (vB n W L H (L - 1)) (dB n' W AD L (L - 1))) := by
  unfold percepK
  dsimp only
  rw [h.len, show L + 1 - 1 = L by omega, show L + 1 - 2 = L - 1 by omega, hE]
  refine Ok.parFor (mrow n L) (fun c => Iff.rfl) ?_ (fun i hi => ?_)
  · intro i _ j _ hne
    rw [Set.disjoint_left]
    rintro c ⟨b, l, p, _, _, rfl⟩ ⟨b', l', p', _, _, e⟩
    simp only [Prod.mk.injEq, List.cons.injEq, and_true] at e
    exact hne e.2.1
  obtain ⟨r1, k1⟩ := Ok.forP (E := E) (n := L) (D := mrow n L i) (body := fun l => fwdLayer ex s E i l (l + 2 == L + 1))
    (fun J => St (fun l i p => if l ≤ J then Hf n W L H l i p else 0) (fun _ _ _ => 0)) (fun J hJ => by
      obtain ⟨r, hr⟩ := fwd_ok (ex := ex) (E := E) (v := fun l i p => if l ≤ J then Hf n W L H l i p else 0) (d := fun _ _ _ => 0)
        (i := i) h (l := J) (by omega) (fun p _ => if_neg (by omega)) (J + 2 == L + 1)
      refine ⟨r, hr.congr (fun _ _ => rfl) (St_congr (fun l hl p hp => ?_) (fun _ _ _ _ => rfl))⟩
      have hpre : ∀ p, MLP.pre n W (fun l i p => if l ≤ J then Hf n W L H l i p else 0) J i p = MLP.pre n W H J i p :=
        pre_congr' (fun k _ => by rw [if_pos le_rfl]; unfold Hf; rw [if_neg (by omega)])
      unfold setL
      by_cases e : l = J + 1
      · subst e
        rw [if_pos le_rfl, if_pos rfl]
        dsimp only
        rw [hpre]
        unfold Hf
        by_cases e2 : J + 1 = L
        · subst e2
          simp only [BEq.rfl, if_true, if_pos rfl]
          rfl
        · rw [if_neg e2, hH]
          have : (J + 2 == L + 1) = false := by simpa using e2
          rw [this]
          rfl
      · rw [if_neg e]
        dsimp only
        by_cases e2 : l ≤ J
        · rw [if_pos e2, if_pos (by omega)]
        · rw [if_neg e2, if_neg (by omega)])
  have k2 : Ok E (parFor (n (L - 1)) (fun p => opt ((s.w (L - 1)).get [0, p]) (fun a => put E (true, L - 1) [i, p] a))) (mrow n L i)
      (St (fun l i p => if l ≤ L then Hf n W L H l i p else 0) (fun _ _ _ => 0)) []
      (St (fun l i p => if l ≤ L then Hf n W L H l i p else 0) (setL (L - 1) (fun _ p => W (L - 1) 0 p) (fun _ _ _ => 0))) := by
    refine rowPar (b0 := (false, L - 1)) (b1 := (true, L - 1)) (k := 0) (by simp) (fun q hq => by omega)
      (fun p hp => mem_mrow (by omega) hp) (fun p hp => ⟨[], Jd.of_ok (Ok.opt (h.get (L - 1) (by omega) 0 ?_ p hp) (Ok.put1 ?_))
        (fun _ _ h => h) (fun _ h => h.elim)⟩) (fun c hc hn => St_setL_d hc hn)
    · rw [show L - 1 + 1 = L by omega]; exact hpos
    · exact if_pos rfl
  obtain ⟨r3, k3⟩ := Ok.forP (E := E) (n := L - 1) (D := mrow n L i) (body := fun k => bwdLayer ex s E i (L + 1 - 3 - k))
    (fun k => St (vB n W L H k) (dB n' W AD L k)) (fun k hk => by
      obtain ⟨l, hl⟩ : ∃ l, l = L - 2 - k := ⟨_, rfl⟩
      have e1 : L - 1 - k = l + 1 := by omega
      have e2 : L - 1 - (k + 1) = l := by omega
      rw [show L + 1 - 3 - k = l by omega]
      obtain ⟨r, hr⟩ := bwd_ok (ex := ex) (E := E) (v := vB n W L H k) (d := dB n' W AD L k) (i := i) h (l := l) (by omega)
      have hpre : ∀ p, MLP.pre n W (vB n W L H k) l i p = MLP.pre n W H l i p :=
        pre_congr' (fun k' _ => by unfold vB Hf; rw [if_neg (by omega), if_neg (by omega)])
      have hd1 : ∀ p, dB n' W AD L k (l + 1) i p = MLP.Dk n' W AD L k i p := fun p => if_pos e1.symm
      refine ⟨r, hr.congr (fun _ _ => rfl) (St_congr (fun l' hl' p hp => ?_) (fun l' hl' p hp => ?_))⟩
      · unfold setL
        by_cases c1 : l' = l + 1
        · subst c1
          rw [if_pos rfl, hpre]
          unfold vB
          rw [if_pos (by omega)]
          rfl
        · rw [if_neg c1]
          unfold vB
          by_cases c2 : l + 1 < l' ∧ l' < L
          · rw [if_pos (by omega), if_pos (by omega)]
          · rw [if_neg (by omega), if_neg (by omega)]
      · unfold setL
        by_cases c0 : l' = l
        · subst c0
          rw [if_pos rfl]
          refine (if_pos e2.symm).trans ?_
          simp only [MLP.Dk]
          rw [e1, ← hl, hn' (l' + 1) (by omega)]
          refine Finset.sum_congr rfl (fun q _ => ?_)
          rw [hd1, hpre, ← hAD, hn, Nat.div_one]
          ring
        · rw [if_neg c0]
          by_cases c1 : l' = l + 1
          · subst c1
            rw [if_pos rfl]
            dsimp only
            rw [hpre, hd1, ← hAD]
            unfold dB
            rw [if_neg (by omega), if_pos (by omega), show L - 1 - (l + 1) = k by omega]
          · rw [if_neg c1]
            unfold dB
            rw [e1, e2, if_neg c0, if_neg c1]
            by_cases c2 : l + 1 < l' ∧ l' < L
            · rw [if_pos (by omega), if_pos c2]
            · rw [if_neg (by omega), if_neg c2])
  refine ⟨r3, Ok.seq (k1.congr (St_congr (fun l _ p _ => ?_) (fun _ _ _ _ => rfl)) (fun _ _ => rfl)) (Ok.seq k2
    (k3.congr (St_congr (fun l hl p _ => ?_) (fun l hl p hp => ?_)) (fun _ _ => rfl)))⟩
  · by_cases e : l = 0
    · subst e
      rw [if_pos rfl, if_pos le_rfl]
      unfold Hf
      rw [if_neg (by omega)]
    · rw [if_neg e, if_neg (by omega)]
  · unfold vB
    rw [if_pos hl, if_neg (by omega)]
  · unfold setL dB
    by_cases e : l = L - 1
    · rw [if_pos e, if_pos (by omega)]
      simp only [MLP.Dk]
      rw [hn, Nat.mod_one]
    · rw [if_neg e, if_neg (by omega), if_neg (by omega)]

end layers

section host
variable {v w x g : View K} {B n : ℕ}

theorem zeroed_spec (h : M2 v) (junk : ℕ → K) (B n : ℕ) :
    (zeroed junk v B n).Ok ∧ (zeroed junk v B n).ext = [B, n] ∧ G2 (zeroed junk v B n) B n (fun _ _ => 0) := by
  unfold zeroed
  have key : (if v.extent 0 ≠ B ∨ v.extent 1 ≠ n then uninit junk [B, n] else v).Ok ∧
      (if v.extent 0 ≠ B ∨ v.extent 1 ≠ n then uninit junk [B, n] else v).ext = [B, n] := by
    obtain ⟨h1, a, b, h2⟩ := h
    split
    · exact ⟨uninit_ok _ _, rfl⟩
    · rename_i hn
      unfold View.extent at hn
      rw [h2] at hn
      simp only [List.getD_cons_zero, List.getD_cons_succ, not_or, not_not] at hn
      exact ⟨h1, by rw [h2, hn.1, hn.2]⟩
  generalize (if v.extent 0 ≠ B ∨ v.extent 1 ≠ n then uninit junk [B, n] else v) = u at *
  exact ⟨View.fill_ok key.1 0, key.2, G2.fill ⟨key.1, B, [n], key.2, le_rfl, Or.inr rfl⟩⟩

omit [Field K] in
theorem copyRows_spec {F : ℕ → ℕ → K} (hv : MN v B n) (hx : MN x B n) (hF : G2 x B n F) :
    ∃ v', copyRows B v x n = some v' ∧ v'.ext = v.ext ∧ v'.Ok ∧ G2 v' B n F := by
  obtain ⟨h1, a, h2, h3⟩ := hv
  obtain ⟨_, a', k2, k3⟩ := hx
  unfold copyRows
  rw [if_pos (by unfold View.extent; rw [h2, k2]; simp; omega)]
  obtain ⟨v', e1, e2, e3, e4⟩ := loop_inv (n := B) (body := fun i => loop n (fun j w => do
      let x ← x.get [i, j]
      w.set [i, j] x)) (s := v)
    (fun i w => w.ext = v.ext ∧ w.Ok ∧ ∀ i' < i, ∀ j < n, w.get [i', j] = some (F i' j)) ⟨rfl, h1, fun i hi => by omega⟩ (by
    rintro i hi w ⟨w1, w2, w3⟩
    obtain ⟨w', e1, e2, e3, e4, e5⟩ := loop_inv (n := n) (body := fun j w => do
        let x ← x.get [i, j]
        w.set [i, j] x) (s := w)
      (fun j w => w.ext = v.ext ∧ w.Ok ∧ (∀ i' < i, ∀ j < n, w.get [i', j] = some (F i' j)) ∧ ∀ j' < j, w.get [i, j'] = some (F i j'))
      ⟨w1, w2, w3, fun j hj => by omega⟩ (by
      rintro j hj u ⟨u1, u2, u3, u4⟩
      obtain ⟨u', s1, s2, s3, s4, s5⟩ := View.set_spec u2 (is := [i, j]) (p := i * n + j)
        (by rw [u1, h2]; exact flat_two (by omega) hj) (F i j)
      refine ⟨u', by rw [hF i hi j hj]; exact s1, s2.trans u1, s3, fun i' hi' j' hj' => ?_, fun j' hj' => ?_⟩
      · rw [s5 _ (by simp; omega)]; exact u3 i' hi' j' hj'
      · by_cases e : j' = j
        · subst e; exact s4
        · rw [s5 _ (by simp; omega)]; exact u4 j' (by omega))
    refine ⟨w', e1, e2, e3, fun i' hi' j hj => ?_⟩
    by_cases e : i' = i
    · subst e; exact e5 j hj
    · exact e4 i' (by omega) j hj)
  exact ⟨v', e1, e2, e3, e4⟩

end host

theorem evaluateGradient_spec (V : Env K) {ex : K → K} {s : Percep K} {L B : ℕ} {n n' : ℕ → ℕ} {W H AD : ℕ → ℕ → ℕ → K}
    (h : PerOk s L n W) (hL : 1 ≤ L) (hn : n' L = 1) (hn' : ∀ l < L, n' l = n l) (hpos : 0 < n L)
    (hH : ∀ l b i, H (l + 1) b i = MLP.act ex s.scale (MLP.pre n W H l b i))
    (hAD : ∀ l b i, AD (l + 1) b i = MLP.actD ex s.scale (MLP.pre n W H l b i)) {x f g : View K} {nv nd : ℕ → View K}
    (hx : MN x B (n 0)) (hx' : G2 x B (n 0) (H 0)) (hf : Room f [] B) (hg : MN g B (n 0)) (hnv : ∀ l ≤ L, M2 (nv l))
    (hnd : ∀ l ≤ L, M2 (nd l)) :
    ∃ f' g' nv' nd', s.evaluateGradient V ex B x f g nv nd = some (f', g', nv', nd') ∧ f'.ext = f.ext ∧ f'.Ok ∧
      G1 f' B (fun i => MLP.outF n W H L i 0) ∧ g'.ext = g.ext ∧ g'.Ok ∧ G2 g' B (n 0) (MLP.Dk n' W AD L (L - 1)) ∧
      (∀ l ≤ L, M2 (nv' l)) ∧ ∀ l ≤ L, M2 (nd' l) := by
  unfold Percep.evaluateGradient
  dsimp only
  have hz1 : ∀ l ≤ L, (s.alloc (fun l => V.junk (2000 + l)) B nv l).Ok ∧ (s.alloc (fun l => V.junk (2000 + l)) B nv l).ext = [B, n l] ∧
      G2 (s.alloc (fun l => V.junk (2000 + l)) B nv l) B (n l) (fun _ _ => 0) := by
    intro l hl
    unfold Percep.alloc
    rw [h.shape l hl]
    exact zeroed_spec (hnv l hl) _ _ _
  have hz2 : ∀ l ≤ L, (s.alloc (fun l => V.junk (3000 + l)) B nd l).Ok ∧ (s.alloc (fun l => V.junk (3000 + l)) B nd l).ext = [B, n l] ∧
      G2 (s.alloc (fun l => V.junk (3000 + l)) B nd l) B (n l) (fun _ _ => 0) := by
    intro l hl
    unfold Percep.alloc
    rw [h.shape l hl]
    exact zeroed_spec (hnd l hl) _ _ _
  generalize s.alloc (fun l => V.junk (2000 + l)) B nv = A at *
  generalize s.alloc (fun l => V.junk (3000 + l)) B nd = D at *
  obtain ⟨v0, e1, e2, e3, e4⟩ := copyRows_spec (v := A 0) (B := B) (n := n 0) ⟨(hz1 0 (by omega)).1, B, (hz1 0 (by omega)).2.1, le_rfl⟩ hx hx'
  rw [h.shape 0 (by omega), Option.bind_eq_bind, Option.bind_some, e1, Option.bind_eq_bind, Option.bind_some, h.len,
    show L + 1 - 1 = L by omega]
  have hA : ∀ l ≤ L, (if l = 0 then v0 else A l).Ok ∧ (if l = 0 then v0 else A l).ext = [B, n l] ∧
      G2 (if l = 0 then v0 else A l) B (n l) (fun i p => if l = 0 then H 0 i p else 0) := by
    intro l hl
    by_cases e : l = 0
    · subst e
      simp only [if_pos]
      exact ⟨e3, e2.trans (hz1 0 hl).2.1, e4⟩
    · simp only [if_neg e]
      exact hz1 l hl
  have he : (fun b : Bool × ℕ => (if b.1 then D b.2 else if b.2 = 0 then v0 else A b.2).ext) = fun b => if b.1 then (D b.2).ext else (if b.2 = 0 then v0 else A b.2).ext := by
    funext b; split <;> rfl
  obtain ⟨vs', k1, k2, k3, k4, -⟩ := launch_ok V.L (vs := fun b : Bool × ℕ => if b.1 then D b.2 else if b.2 = 0 then v0 else A b.2)
    (p := percepK ex s B (fun b => if b.1 then (D b.2).ext else (if b.2 = 0 then v0 else A b.2).ext)) (by
      rw [he]
      exact percep_ok h hL hn hn' hpos hH hAD (by
        show ((D (L - 1)).ext).getD 1 0 = _
        rw [(hz2 (L - 1) (by omega)).2.1]; rfl)) (by
    rintro c ⟨i, hi, b, l, p, hl, hp, rfl⟩
    cases b
    · exact (hA l hl).2.2 i hi p hp
    · exact (hz2 l hl).2.2 i hi p hp)
  rw [k1, Option.bind_eq_bind, Option.bind_some]
  have ho : ∀ i < B, (vs' (false, L)).get [i, 0] = some (MLP.outF n W H L i 0) := by
    intro i hi
    refine (k4 ((false, L), [i, 0]) ⟨i, hi, mem_mrow le_rfl (by omega)⟩).trans ?_
    show some (vB n W L H (L - 1) L i 0) = _
    unfold vB Hf
    rw [if_neg (by omega), if_pos rfl]
  have hd : G2 (vs' (true, 0)) B (n 0) (MLP.Dk n' W AD L (L - 1)) := by
    intro i hi p hp
    refine (k4 ((true, 0), [i, p]) ⟨i, hi, mem_mrow (by omega) hp⟩).trans ?_
    show some (dB n' W AD L (L - 1) 0 i p) = _
    unfold dB
    rw [if_pos (by omega)]
  have hv : ∀ l ≤ L, (vs' (false, l)).Ok ∧ (vs' (false, l)).ext = [B, n l] := fun l hl =>
    ⟨k3 (false, l) (hA l hl).1, (k2 (false, l)).trans (hA l hl).2.1⟩
  have hw : ∀ l ≤ L, (vs' (true, l)).Ok ∧ (vs' (true, l)).ext = [B, n l] := fun l hl =>
    ⟨k3 (true, l) (hz2 l hl).1, (k2 (true, l)).trans (hz2 l hl).2.1⟩
  obtain ⟨f', f1, f2, f3, f4⟩ := loop_inv (n := B) (s := f) (body := fun i f => do
      let a ← (vs' (false, L)).get [i, 0]
      f.set [i] a)
    (fun i u => u.ext = f.ext ∧ u.Ok ∧ ∀ i' < i, u.get [i'] = some (MLP.outF n W H L i' 0)) ⟨rfl, hf.1, fun i hi => by omega⟩ (by
    rintro i hi u ⟨u1, u2, u3⟩
    obtain ⟨p, hp⟩ := hf.has (is := []) hi ⟨i, rfl⟩
    obtain ⟨u', s1, s2, s3, s4, s5⟩ := View.set_spec u2 (is := [i]) (p := p) (by rw [u1]; exact hp) (MLP.outF n W H L i 0)
    refine ⟨u', by rw [ho i hi]; exact s1, s2.trans u1, s3, fun i' hi' => ?_⟩
    by_cases e : i' = i
    · subst e; exact s4
    · rw [s5 _ (by simpa using e)]; exact u3 i' (by omega))
  obtain ⟨g', g1, g2, g3, g4⟩ := copyRows_spec hg ⟨(hw 0 (by omega)).1, B, (hw 0 (by omega)).2, le_rfl⟩ hd
  refine ⟨f', g', fun l => vs' (false, l), fun l => vs' (true, l), ?_, f2, f3, f4, g2, g3, g4,
    fun l hl => ⟨(hv l hl).1, _, _, (hv l hl).2⟩, fun l hl => ⟨(hw l hl).1, _, _, (hw l hl).2⟩⟩
  rw [f1, Option.bind_some, g1]
  rfl

end Verif.Kokkos
