import Verif.Base.Atomic
import Verif.Model.Kokkos.Comm

/-! # Communication functions of the Kokkos pair style -/

namespace Verif.Kokkos
open Verif.Par Verif.Par.Prog Verif.MACE

variable {K : Type} [Field K] {LM C n : ℕ}

theorem msg_index {ii a k : ℕ} : ii * LM * C + a * C + k = (ii * LM + a) * C + k := by ring

theorem msg_inj {i a k i' a' k' : ℕ} (ha : a < LM) (hk : k < C) (ha' : a' < LM) (hk' : k' < C)
    (h : i * LM * C + a * C + k = i' * LM * C + a' * C + k') : i = i' ∧ a = a' ∧ k = k' := by
  rw [msg_index, msg_index] at h
  have h1 := congrArg (· % C) h
  have h2 := congrArg (· / C) h
  simp only [flat_mod hk, flat_mod hk', flat_div hk, flat_div hk'] at h1 h2
  have h3 := congrArg (· % LM) h2
  have h4 := congrArg (· / LM) h2
  simp only [flat_mod ha, flat_mod ha', flat_div ha, flat_div ha'] at h3 h4
  exact ⟨h4, h3, h1⟩

/-- Every triple of indices writes a value to a cell of its own. -/
theorem put3_lc {E : Unit → List ℕ} {o : ℕ → ℕ → ℕ → Option K} {x : ℕ → ℕ → ℕ → K} {pos : ℕ → ℕ → ℕ → List ℕ} {q : Unit × List ℕ → K → K}
    (ho : ∀ i < n, ∀ a < LM, ∀ k < C, o i a k = some (x i a k)) (hq : ∀ i < n, ∀ a < LM, ∀ k < C, ∀ y, q ((), pos i a k) y = x i a k)
    (hd : ∀ i < n, ∀ a < LM, ∀ k < C, ∀ i' < n, ∀ a' < LM, ∀ k' < C, pos i a k = pos i' a' k' → i = i' ∧ a = a' ∧ k = k') :
    Lc E (parFor3 n LM C (fun i a k => opt (o i a k) (fun x => put E () (pos i a k) x)))
      (ex n fun i => ex LM fun a => ex C fun k => {((), pos i a k)}) q := by
  refine Lc.parFor (fun i hi => Lc.parFor (fun a ha => Lc.parFor (fun k hk => Lc.opt (ho i hi a ha k hk) (Lc.put (hq i hi a ha k hk))) ?_) ?_) ?_
  · rintro k hk k' hk' c rfl e
    exact (hd i hi a ha k hk i hi a ha k' hk' (congrArg Prod.snd e)).2.2
  · rintro a ha a' ha' c ⟨k, hk, rfl⟩ ⟨k', hk', e⟩
    exact (hd i hi a ha k hk i hi a' ha' k' hk' (congrArg Prod.snd e)).2.1
  · rintro i hi i' hi' c ⟨a, ha, k, hk, rfl⟩ ⟨a', ha', k', hk', e⟩
    exact (hd i hi a ha k hk i' hi' a' ha' k' hk' (congrArg Prod.snd e)).1

theorem launch_put3 (L : Launcher K) {v : View K} {o : ℕ → ℕ → ℕ → Option K} {x : ℕ → ℕ → ℕ → K} {pos : ℕ → ℕ → ℕ → List ℕ}
    (ho : ∀ i < n, ∀ a < LM, ∀ k < C, o i a k = some (x i a k)) (hv : ∀ i < n, ∀ a < LM, ∀ k < C, ∃ y, v.get (pos i a k) = some y)
    (hd : ∀ i < n, ∀ a < LM, ∀ k < C, ∀ i' < n, ∀ a' < LM, ∀ k' < C, pos i a k = pos i' a' k' → i = i' ∧ a = a' ∧ k = k') :
    ∃ v', L.launch1 (parFor3 n LM C (fun i a k => opt (o i a k) (fun x => put (fun _ => v.ext) () (pos i a k) x))) v = some v' ∧
      v'.ext = v.ext ∧ (v.Ok → v'.Ok) ∧ (∀ i < n, ∀ a < LM, ∀ k < C, v'.get (pos i a k) = some (x i a k)) ∧
      ∀ c, (∀ i < n, ∀ a < LM, ∀ k < C, c ≠ pos i a k) → v'.get c = v.get c := by
  classical
  have := put3_lc (E := fun _ => v.ext) (q := fun c y => if h : ∃ t : ℕ × ℕ × ℕ, (t.1 < n ∧ t.2.1 < LM ∧ t.2.2 < C) ∧ c.2 = pos t.1 t.2.1 t.2.2
    then x h.choose.1 h.choose.2.1 h.choose.2.2 else y) ho (fun i hi a ha k hk y => by
      have h : ∃ t : ℕ × ℕ × ℕ, (t.1 < n ∧ t.2.1 < LM ∧ t.2.2 < C) ∧ pos i a k = pos t.1 t.2.1 t.2.2 := ⟨(i, a, k), ⟨hi, ha, hk⟩, rfl⟩
      show dite _ _ _ = _
      rw [dif_pos h]
      obtain ⟨⟨h1, h2, h3⟩, h4⟩ := h.choose_spec
      obtain ⟨e1, e2, e3⟩ := hd i hi a ha k hk _ h1 _ h2 _ h3 h4
      rw [← e1, ← e2, ← e3]) hd
  obtain ⟨v', h1, h2, h3, h4, h5⟩ := launch1_lc L (fun c => (v.get c).getD 0) this (by
    rintro c ⟨i, hi, a, ha, k, hk, e⟩
    obtain rfl : c = pos i a k := congrArg Prod.snd e
    obtain ⟨y, hy⟩ := hv i hi a ha k hk
    rw [hy]; rfl)
  refine ⟨v', h1, h2, h3, fun i hi a ha k hk => ?_, fun c hc => h5 c ?_⟩
  · rw [h4 _ ⟨i, hi, a, ha, k, hk, rfl⟩]
    have h : ∃ t : ℕ × ℕ × ℕ, (t.1 < n ∧ t.2.1 < LM ∧ t.2.2 < C) ∧ pos i a k = pos t.1 t.2.1 t.2.2 := ⟨(i, a, k), ⟨hi, ha, hk⟩, rfl⟩
    dsimp only
    rw [dif_pos h]
    obtain ⟨⟨h1, h2, h3⟩, h4⟩ := h.choose_spec
    obtain ⟨e1, e2, e3⟩ := hd i hi a ha k hk _ h1 _ h2 _ h3 h4
    rw [← e1, ← e2, ← e3]
  · rintro ⟨i, hi, a, ha, k, hk, e⟩
    exact hc i hi a ha k hk (congrArg Prod.snd e)

theorem get_of_room {v : View K} {m p : ℕ} (hv : v.Ok) (he : v.ext = [m]) (hp : p < m) : ∃ y, v.get [p] = some y :=
  View.exists_get hv (by rw [he]; exact flat_one hp)

theorem packForward_spec (V : Env K) {list : List ℕ} {H1 buf : View K} {m : ℕ} {H : ℕ → ℕ → ℕ → K} {l : ℕ → ℕ}
    (hl : ∀ ii < n, list[ii]? = some (l ii)) (hH : ∀ ii < n, ∀ a < LM, ∀ k < C, H1.get [l ii, a, k] = some (H (l ii) a k))
    (hb : buf.Ok) (he : buf.ext = [m]) (hm : n * LM * C ≤ m) :
    ∃ b, packForward V LM C n list H1 buf = some (n * LM * C, b) ∧ b.Ok ∧ b.ext = [m] ∧
      ∀ ii < n, ∀ a < LM, ∀ k < C, b.get [ii * LM * C + a * C + k] = some (H (l ii) a k) := by
  obtain ⟨b, h1, h2, h3, h4, -⟩ := launch_put3 V.L (v := buf) (o := fun ii a k => (list[ii]?).bind (fun i => H1.get [i, a, k]))
    (x := fun ii a k => H (l ii) a k) (pos := fun ii a k => [ii * LM * C + a * C + k])
    (fun ii hi a ha k hk => by rw [hl ii hi]; exact hH ii hi a ha k hk)
    (fun ii hi a ha k hk => get_of_room hb he (lt_of_lt_of_le (by rw [msg_index]; exact flat3_lt hi ha hk) hm))
    (fun i hi a ha k hk i' hi' a' ha' k' hk' e => msg_inj ha hk ha' hk' (List.cons.inj e).1)
  exact ⟨b, (bind_of_some h1 _).trans rfl, h3 hb, h2.trans he, h4⟩

theorem packReverse_spec (V : Env K) {first : ℕ} {Ha buf : View K} {m : ℕ} {H : ℕ → ℕ → ℕ → K}
    (hH : ∀ i < n, ∀ a < LM, ∀ k < C, Ha.get [first + i, a, k] = some (H (first + i) a k))
    (hb : buf.Ok) (he : buf.ext = [m]) (hm : n * LM * C ≤ m) :
    ∃ b, packReverse V LM C n first Ha buf = some (n * LM * C, b) ∧ b.Ok ∧ b.ext = [m] ∧
      ∀ i < n, ∀ a < LM, ∀ k < C, b.get [i * LM * C + a * C + k] = some (H (first + i) a k) := by
  obtain ⟨b, h1, h2, h3, h4, -⟩ := launch_put3 V.L (v := buf) (o := fun i a k => Ha.get [first + i, a, k])
    (x := fun i a k => H (first + i) a k) (pos := fun i a k => [i * LM * C + a * C + k]) hH
    (fun ii hi a ha k hk => get_of_room hb he (lt_of_lt_of_le (by rw [msg_index]; exact flat3_lt hi ha hk) hm))
    (fun i hi a ha k hk i' hi' a' ha' k' hk' e => msg_inj ha hk ha' hk' (List.cons.inj e).1)
  exact ⟨b, (bind_of_some h1 _).trans rfl, h3 hb, h2.trans he, h4⟩

theorem unpackForward_spec (V : Env K) {first : ℕ} {H1 buf : View K} {x : ℕ → ℕ → ℕ → K}
    (hx : ∀ i < n, ∀ a < LM, ∀ k < C, buf.get [i * LM * C + a * C + k] = some (x i a k))
    (hH : ∀ i < n, ∀ a < LM, ∀ k < C, ∃ y, H1.get [first + i, a, k] = some y) :
    ∃ G, unpackForward V LM C n first buf H1 = some G ∧ G.ext = H1.ext ∧ (H1.Ok → G.Ok) ∧
      (∀ i < n, ∀ a < LM, ∀ k < C, G.get [first + i, a, k] = some (x i a k)) ∧
      ∀ c, (∀ i < n, ∀ a < LM, ∀ k < C, c ≠ [first + i, a, k]) → G.get c = H1.get c :=
  launch_put3 V.L (v := H1) (o := fun i a k => buf.get [i * LM * C + a * C + k]) (pos := fun i a k => [first + i, a, k]) hx hH
    (fun i hi a ha k hk i' hi' a' ha' k' hk' e => by
      simp only [List.cons.injEq, add_right_inj, and_true] at e
      exact e)

theorem unpackReverse_spec (V : Env K) {list : List ℕ} {buf Ha : View K} {NH : ℕ} {l : ℕ → ℕ} {x H : ℕ → ℕ → ℕ → K}
    (hl : ∀ ii < n, list[ii]? = some (l ii)) (hlt : ∀ ii < n, l ii < NH)
    (hx : ∀ i < n, ∀ a < LM, ∀ k < C, buf.get [i * LM * C + a * C + k] = some (x i a k)) (hH : G3 Ha NH LM C H) :
    ∃ G, unpackReverse V LM C n list buf Ha = some G ∧ G.ext = Ha.ext ∧ (Ha.Ok → G.Ok) ∧
      G3 G NH LM C (fun i a k => H i a k + ∑ ii ∈ Finset.range n, if l ii = i then x ii a k else 0) ∧
      ∀ c, (∀ i < NH, ∀ a < LM, ∀ k < C, c ≠ [i, a, k]) → G.get c = Ha.get c := by
  classical
  have hp : Ad (fun _ => Ha.ext) (parFor3 n LM C (fun ii a k => opt (both list[ii]? (buf.get [ii * LM * C + a * C + k])) (fun q =>
      atomic (fun _ => Ha.ext) () [q.1, a, k] q.2))) (ex NH fun i => ex LM fun a => ex C fun k => {((), [i, a, k])}) []
      (fun c => ∑ ii ∈ Finset.range n, ∑ a ∈ Finset.range LM, ∑ k ∈ Finset.range C, if c = ((), [l ii, a, k]) then x ii a k else 0) := by
    refine Ad.parFor (fun ii hi => ⟨[], Ad.parFor (fun a ha => ⟨[], Ad.parFor (fun k hk => ⟨[], ?_⟩)⟩)⟩)
    refine Ad.opt (a := (l ii, x ii a k)) ?_ ?_
    · unfold both
      rw [hl ii hi, hx ii hi a ha k hk]
      rfl
    · have hm : ((), [l ii, a, k]) ∈ (ex NH fun i => ex LM fun a => ex C fun k => {((), [i, a, k])} : Set (Unit × List ℕ)) :=
        ⟨l ii, hlt ii hi, a, ha, k, hk, rfl⟩
      refine (Ad.atomic hm).congr (fun c _ => ?_)
      split_ifs <;> rfl
  obtain ⟨G, h1, h2, h3, h4, h5⟩ := launch1_lc V.L (fun c => (Ha.get c).getD 0) hp.lc (by
    rintro c ⟨i, hi, a, ha, k, hk, e⟩
    obtain rfl : c = [i, a, k] := congrArg Prod.snd e
    rw [hH i hi a ha k hk]; rfl)
  refine ⟨G, h1, h2, h3, fun i hi a ha k hk => ?_, fun c hc => h5 c ?_⟩
  · rw [h4 _ ⟨i, hi, a, ha, k, hk, rfl⟩, hH i hi a ha k hk, Option.getD_some]
    congr 2
    refine Finset.sum_congr rfl (fun ii _ => ?_)
    simp only [Prod.mk.injEq, true_and, List.cons.injEq, and_true]
    rw [Finset.sum_eq_single a, Finset.sum_eq_single k]
    · by_cases e : l ii = i
      · rw [if_pos e, if_pos ⟨e.symm, rfl, rfl⟩]
      · rw [if_neg e, if_neg (fun h => e h.1.symm)]
    · intro b _ hb
      exact if_neg (fun h => hb h.2.2.symm)
    · intro h; exact absurd (Finset.mem_range.mpr hk) h
    · intro b _ hb
      exact Finset.sum_eq_zero (fun k' _ => if_neg (fun h => hb h.2.1.symm))
    · intro h; exact absurd (Finset.mem_range.mpr ha) h
  · rintro ⟨i, hi, a, ha, k, hk, e⟩
    exact hc i hi a ha k hk (congrArg Prod.snd e)

end Verif.Kokkos
