import Verif.Lemmas.PolyCtor

/-! # The evaluation graph of a polynomial depends on the monomials only -/

namespace Verif.Poly

theorem keys_mapInsert {K : Type} (x : List ℕ) (c : K) (l : List (List ℕ × K)) :
    (mapInsert x c l).map Prod.fst = setInsert x (l.map Prod.fst) := by
  induction l with
  | nil => rfl
  | cons z l ih =>
    unfold mapInsert
    rw [List.map_cons]
    unfold setInsert
    split_ifs
    · rfl
    · rw [List.map_cons, ih]
    · rfl

theorem keys_buildMap {K : Type} {co : List K} {mo : List (List ℕ)} {m : List (List ℕ × K)} (h : buildMap co mo = some m) :
    m.map Prod.fst = mo.foldl (fun S k => setInsert k S) [] := by
  have key : ∀ n m, Verif.loop n (fun i m => do
      let k ← mo[i]?
      let c ← co[i]?
      pure (mapInsert k c m)) ([] : List (List ℕ × K)) = some m →
      m.map Prod.fst = (mo.take n).foldl (fun S k => setInsert k S) [] := by
    intro n
    induction n with
    | zero => intro m h; simp only [Verif.loop, Option.some.injEq] at h; subst h; rfl
    | succ n ih =>
      intro m h
      rw [loop_succ, Option.bind_eq_bind, Option.bind_eq_some_iff] at h
      obtain ⟨m', h1, h2⟩ := h
      simp only [Option.bind_eq_bind, Option.bind_eq_some_iff, pure, Option.some.injEq] at h2
      obtain ⟨k, e1, c, e2, rfl⟩ := h2
      rw [keys_mapInsert, ih m' h1, List.take_add_one, e1, Option.toList_some, List.foldl_append]
      rfl
  have := key _ _ h
  rwa [List.take_length] at this

theorem mk?_graph {K : Type} [CommRing K] {srt : List (List (List ℕ)) → List (List (List ℕ))} {nv : ℕ} {co co' : List K}
    {mo : List (List ℕ)} {P P' : Poly K} (h : Poly.mk? srt nv co mo = some P) (h' : Poly.mk? srt nv co' mo = some P') :
    P.nodes = P'.nodes ∧ P.edges = P'.edges := by
  unfold Poly.mk? at h h'
  simp only [Option.bind_eq_bind, Option.bind_eq_some_iff, pure, Option.some.injEq] at h h'
  obtain ⟨m, e1, st, e2, es, e3, nc, e4, rfl⟩ := h
  obtain ⟨m', e1', st', e2', es', e3', nc', e4', rfl⟩ := h'
  rw [keys_buildMap e1] at e2
  rw [keys_buildMap e1', e2, Option.some.injEq] at e2'
  subst e2'
  rw [e3, Option.some.injEq] at e3'
  exact ⟨rfl, e3'⟩

end Verif.Poly
