import Verif.Model.Polynomial
import Verif.Lemmas.Partitions
import Mathlib.Data.Finset.Card
import Mathlib.Data.List.Nodup

/-! # Helper lemmas: construction of the polynomial graph (C19, C23) -/

namespace Verif.Poly
open Verif.Tools

/-! ## The order -/

theorem lexLess_irrefl (a : List ℕ) : ¬ lexLess a a := by
  rintro (h | ⟨_, h⟩)
  · omega
  · exact lt_irrefl a h

theorem lexLess_trans {a b c : List ℕ} (h1 : lexLess a b) (h2 : lexLess b c) : lexLess a c := by
  rcases h1 with h1 | ⟨h1, h1'⟩ <;> rcases h2 with h2 | ⟨h2, h2'⟩
  · left; omega
  · left; omega
  · left; omega
  · right; exact ⟨by omega, lt_trans h1' h2'⟩

theorem lexLess_tri (a b : List ℕ) : lexLess a b ∨ a = b ∨ lexLess b a := by
  rcases lt_trichotomy a.length b.length with h | h | h
  · exact Or.inl (Or.inl h)
  · rcases lt_trichotomy a b with h' | h' | h'
    · exact Or.inl (Or.inr ⟨h, h'⟩)
    · exact Or.inr (Or.inl h')
    · exact Or.inr (Or.inr (Or.inr ⟨h.symm, h'⟩))
  · exact Or.inr (Or.inr (Or.inl h))

theorem lexLess_asymm {a b : List ℕ} (h : lexLess a b) : ¬ lexLess b a :=
  fun h' => lexLess_irrefl a (lexLess_trans h h')

/-- Sorted list without repetition. -/
def Sorted (S : List (List ℕ)) : Prop := S.Pairwise lexLess

theorem Sorted.nodup {S : List (List ℕ)} (h : Sorted S) : S.Nodup := by
  refine List.Pairwise.imp (R := lexLess) (S := (· ≠ ·)) ?_ h
  intro a b h' he
  exact lexLess_irrefl _ (he ▸ h')

theorem mem_setInsert {x y : List ℕ} {S : List (List ℕ)} : y ∈ setInsert x S ↔ y = x ∨ y ∈ S := by
  induction S with
  | nil => simp [setInsert]
  | cons z l ih =>
    unfold setInsert
    split
    · simp
    · split
      · simp only [List.mem_cons, ih]; tauto
      · rename_i h1 h2
        have : x = z := by
          rcases lexLess_tri x z with h | h | h
          · exact absurd h h1
          · exact h
          · exact absurd h h2
        subst this
        simp

theorem sorted_setInsert {x : List ℕ} {S : List (List ℕ)} (h : Sorted S) : Sorted (setInsert x S) := by
  induction S with
  | nil => simp [setInsert, Sorted]
  | cons z l ih =>
    unfold Sorted at h
    rw [List.pairwise_cons] at h
    unfold setInsert
    split
    · rename_i h1
      unfold Sorted
      rw [List.pairwise_cons]
      refine ⟨?_, List.pairwise_cons.mpr h⟩
      intro y hy
      rcases List.mem_cons.mp hy with rfl | hy
      · exact h1
      · exact lexLess_trans h1 (h.1 y hy)
    · split
      · rename_i h1 h2
        unfold Sorted
        rw [List.pairwise_cons]
        refine ⟨?_, ih h.2⟩
        intro y hy
        rcases mem_setInsert.mp hy with rfl | hy
        · exact h2
        · exact h.1 y hy
      · exact List.pairwise_cons.mpr h

theorem length_setInsert {x : List ℕ} {S : List (List ℕ)} (hx : x ∉ S) : (setInsert x S).length = S.length + 1 := by
  induction S with
  | nil => simp [setInsert]
  | cons z l ih =>
    unfold setInsert
    split
    · simp
    · split
      · simp [ih (fun h => hx (List.mem_cons_of_mem _ h))]
      · rename_i h1 h2
        rcases lexLess_tri x z with h | h | h
        · exact absurd h h1
        · exact absurd (h ▸ List.mem_cons_self) hx
        · exact absurd h h2

/-! ## Two-part partitions -/

theorem single_mem_fold (v0 : ℕ) (vs : List ℕ) :
    [v0 :: vs] ∈ vs.foldl (fun ps x => twoPartStep x ps) [[[v0]]] := by
  induction vs using List.reverseRecOn with
  | nil => simp
  | append_singleton vs x ih =>
    rw [List.foldl_append]
    simp only [List.foldl_cons, List.foldl_nil]
    unfold twoPartStep
    rw [List.mem_flatMap]
    exact ⟨_, ih, by simp⟩

/-- The split "all but the last | last" is one of the two-part partitions. -/
theorem prefix_mem_twoPart {m : List ℕ} (hm : m ≠ []) (x : ℕ) : [m, [x]] ∈ twoPartUnsorted (m ++ [x]) := by
  obtain ⟨v0, vs, rfl⟩ := List.exists_cons_of_ne_nil hm
  show [v0 :: vs, [x]] ∈ ((vs ++ [x]).foldl (fun ps x => twoPartStep x ps) [[[v0]]]).filter _
  rw [List.mem_filter, List.foldl_append]
  refine ⟨?_, by simp⟩
  simp only [List.foldl_cons, List.foldl_nil]
  unfold twoPartStep
  rw [List.mem_flatMap]
  exact ⟨_, single_mem_fold v0 vs, by simp⟩

/-- A two-part partition has two non-empty blocks that together are a rearrangement of the node. -/
theorem twoPart_blocks {node : List ℕ} {p : List (List ℕ)} (hp : p ∈ twoPartUnsorted node) :
    ∃ a b, p = [a, b] ∧ (a ++ b).Perm node ∧ a ≠ [] ∧ b ≠ [] := by
  have hv : node ≠ [] := by rintro rfl; simp [twoPartUnsorted] at hp
  have hpos := List.length_pos_iff.mpr hv
  have hne : List.finRange node.length ≠ [] := by
    apply List.length_pos_iff.mp; simpa using hpos
  obtain ⟨h1, h2⟩ := partitionsUnsorted_spec hne (List.nodup_finRange _)
  have hmap : (List.finRange node.length).map (fun i => node[i]) = node := by
    apply List.ext_getElem <;> simp
  rw [← hmap, twoPartUnsorted_map] at hp
  obtain ⟨q, hq, rfl⟩ := List.mem_map.mp hp
  rw [twoPartUnsorted_eq, List.mem_filter, h2] at hq
  obtain ⟨hq, hlen⟩ := hq
  have hlen : q.length = 2 := by simpa using hlen
  obtain ⟨a, b, rfl⟩ := List.length_eq_two.mp hlen
  refine ⟨a.map _, b.map _, rfl, ?_, ?_, ?_⟩
  · have := hq.perm.map (fun i : Fin node.length => node[i])
    rw [hmap] at this
    simpa using this
  · have := hq.nonempty a (by simp)
    simpa using this
  · have := hq.nonempty b (by simp)
    simpa using this

/-- The node is a single variable or has two factors in the set. -/
def Good (S : List (List ℕ)) (y : List ℕ) : Prop :=
  y.length = 1 ∨ ∃ a b, [a, b] ∈ twoPartUnsorted y ∧ a ∈ S ∧ b ∈ S

theorem Good.mono {S S' : List (List ℕ)} {y : List ℕ} (h : Good S y) (hS : S ⊆ S') : Good S' y := by
  rcases h with h | ⟨a, b, h1, h2, h3⟩
  · exact Or.inl h
  · exact Or.inr ⟨a, b, h1, hS h2, hS h3⟩

theorem findParents_some {srt : List (List (List ℕ)) → List (List (List ℕ))} (hs : SortFn srt) {node : List ℕ}
    {S : List (List ℕ)} {f : List ℕ × List ℕ} (h : findParents srt node S = some f) :
    [f.1, f.2] ∈ twoPartUnsorted node ∧ f.1 ∈ S ∧ f.2 ∈ S := by
  unfold findParents at h
  obtain ⟨p, hp, hf⟩ := List.exists_of_findSome?_eq_some h
  have hp' := (hs (twoPartUnsorted node)).1.mem_iff.mp hp
  obtain ⟨a, b, rfl, -⟩ := twoPart_blocks hp'
  simp only [List.getElem?_cons_zero, List.getElem?_cons_succ] at hf
  split at hf
  · rename_i hab
    obtain rfl := Option.some.inj hf
    exact ⟨hp', hab⟩
  · simp at hf

theorem findParents_isSome {srt : List (List (List ℕ)) → List (List (List ℕ))} (hs : SortFn srt) {node : List ℕ}
    {S : List (List ℕ)} {a b : List ℕ} (h : [a, b] ∈ twoPartUnsorted node) (ha : a ∈ S) (hb : b ∈ S) :
    ∃ f, findParents srt node S = some f := by
  rw [← Option.isSome_iff_exists]
  unfold findParents
  rw [List.findSome?_isSome_iff]
  exact ⟨[a, b], (hs _).1.mem_iff.mpr h, by simp [ha, hb]⟩

/-! ## Adding auxiliary nodes -/

/-- What the node set always satisfies. -/
structure Inv (nv : ℕ) (S : List (List ℕ)) : Prop where
  sorted : Sorted S
  ne : ∀ y ∈ S, y ≠ []
  range : ∀ y ∈ S, ∀ v ∈ y, v < nv
  vars : ∀ v < nv, [v] ∈ S

theorem popLoop_spec {srt : List (List (List ℕ)) → List (List (List ℕ))} (hs : SortFn srt) {nv : ℕ} (fuel : ℕ)
    (node : List ℕ) (S : List (List ℕ)) (aux : ℕ) (hI : Inv nv S) (hr : ∀ v ∈ node, v < nv)
    (h2 : 2 ≤ node.length) (hf : node.length < fuel) :
    ∃ S' aux', popLoop srt fuel node (S, aux) = some (S', aux') ∧ Inv nv S' ∧ S ⊆ S' ∧
      aux' + S.length = aux + S'.length ∧ Good S' node ∧
      ∀ y ∈ S', y ∉ S → y.length < node.length ∧ Good S' y := by
  induction fuel generalizing node S aux with
  | zero => omega
  | succ fuel ih =>
    unfold popLoop
    cases hfp : findParents srt node S with
    | some f =>
      refine ⟨S, aux, rfl, hI, fun y hy => hy, rfl, ?_, fun y h1 h2 => absurd h1 h2⟩
      obtain ⟨h3, h4, h5⟩ := findParents_some hs hfp
      exact Or.inr ⟨_, _, h3, h4, h5⟩
    | none =>
      have hne : node ≠ [] := by rintro rfl; simp at h2
      simp only [if_neg hne]
      have hnode : node.dropLast ++ [node.getLast hne] = node := List.dropLast_append_getLast hne
      set m := node.dropLast with hm
      set x := node.getLast hne with hx
      have hml : m.length = node.length - 1 := by simp [hm]
      have hmne : m ≠ [] := by rintro h; rw [h] at hml; simp at hml; omega
      have hxS : [x] ∈ S := hI.vars x (hr x (List.getLast_mem hne))
      have hmS : m ∉ S := by
        intro hmS
        obtain ⟨f, hf'⟩ := findParents_isSome hs (prefix_mem_twoPart hmne x) hmS hxS
        rw [hnode, hfp] at hf'
        simp at hf'
      have hmr : ∀ v ∈ m, v < nv := fun v hv => hr v (List.mem_of_mem_dropLast hv)
      have hm2 : 2 ≤ m.length := by
        by_contra hlt
        have : m.length = 1 := by have := List.length_pos_iff.mpr hmne; omega
        obtain ⟨a, ha⟩ := List.length_eq_one_iff.mp this
        exact hmS (ha ▸ hI.vars a (hmr a (by simp [ha])))
      have hI1 : Inv nv (setInsert m S) := by
        refine ⟨sorted_setInsert hI.sorted, ?_, ?_, ?_⟩
        · intro y hy
          rcases mem_setInsert.mp hy with rfl | hy
          · exact hmne
          · exact hI.ne y hy
        · intro y hy
          rcases mem_setInsert.mp hy with rfl | hy
          · exact hmr
          · exact hI.range y hy
        · intro v hv; exact mem_setInsert.mpr (Or.inr (hI.vars v hv))
      obtain ⟨S', aux', e1, e2, e3, e4, e5, e6⟩ := ih m (setInsert m S) (aux + 1) hI1 hmr hm2 (by omega)
      have hmS' : m ∈ S' := e3 (mem_setInsert.mpr (Or.inl rfl))
      have hSS' : S ⊆ S' := fun y hy => e3 (mem_setInsert.mpr (Or.inr hy))
      refine ⟨S', aux', e1, e2, hSS', ?_, ?_, ?_⟩
      · rw [length_setInsert hmS] at e4; omega
      · refine Or.inr ⟨m, [x], ?_, hmS', hSS' hxS⟩
        have := prefix_mem_twoPart hmne x
        rwa [hnode] at this
      · intro y hy hyS
        by_cases hym : y = m
        · subst hym; exact ⟨by omega, e5⟩
        · have := e6 y hy (fun h => by rcases mem_setInsert.mp h with h | h <;> contradiction)
          exact ⟨by omega, this.2⟩

theorem find_sorted {S : List (List ℕ)} (hS : Sorted S) {P : List ℕ → Prop} [DecidablePred P] {n' : List ℕ}
    (h : S.find? (fun y => decide (P y)) = some n') :
    n' ∈ S ∧ P n' ∧ ∀ y ∈ S, P y → ¬ lexLess y n' := by
  induction S with
  | nil => simp at h
  | cons z l ih =>
    unfold Sorted at hS
    rw [List.pairwise_cons] at hS
    rw [List.find?_cons] at h
    split at h
    · rename_i hz
      obtain rfl := Option.some.inj h
      refine ⟨by simp, by simpa using hz, ?_⟩
      intro y hy _
      rcases List.mem_cons.mp hy with rfl | hy
      · exact lexLess_irrefl _
      · exact lexLess_asymm (hS.1 y hy)
    · rename_i hz
      obtain ⟨h1, h2, h3⟩ := ih hS.2 h
      refine ⟨by simp [h1], h2, ?_⟩
      intro y hy hP
      rcases List.mem_cons.mp hy with rfl | hy
      · simp [hP] at hz
      · exact h3 y hy hP

/-- Number of elements not smaller than `node`. -/
def rest (S : List (List ℕ)) (node : List ℕ) : ℕ := (S.filter (fun y => ¬ lexLess y node)).length

theorem rest_lt {S S' : List (List ℕ)} (hS' : Sorted S') {node node' : List ℕ}
    (hnode : node ∈ S) (hnew : ∀ y ∈ S', y ∉ S → lexLess y node) (hlt : lexLess node node') :
    rest S' node' < rest S node := by
  unfold rest
  have hsub : (S'.filter (fun y => ¬ lexLess y node')) ⊆ (S.filter (fun y => ¬ lexLess y node)).erase node := by
    intro y hy
    rw [List.mem_filter] at hy
    obtain ⟨hy1, hy2⟩ := hy
    have hy2 : ¬ lexLess y node' := by simpa using hy2
    have hyS : y ∈ S := by
      by_contra h
      exact hy2 (lexLess_trans (hnew y hy1 h) hlt)
    have hne : y ≠ node := fun h => hy2 (h ▸ hlt)
    rw [List.mem_erase_of_ne hne, List.mem_filter]
    refine ⟨hyS, ?_⟩
    have : ¬ lexLess y node := fun h => hy2 (lexLess_trans h hlt)
    simpa using this
  have h1 := (List.Nodup.subperm (hS'.nodup.filter _) hsub).length_le
  have hmem : node ∈ S.filter (fun y => ¬ lexLess y node) := by
    rw [List.mem_filter]; exact ⟨hnode, by simpa using lexLess_irrefl node⟩
  rw [List.length_erase_of_mem hmem] at h1
  have := List.length_pos_of_mem hmem
  omega

theorem auxLoop_spec {srt : List (List (List ℕ)) → List (List (List ℕ))} (hs : SortFn srt) {nv : ℕ} (fuel : ℕ)
    (next : Option (List ℕ)) (S : List (List ℕ)) (aux : ℕ) (hI : Inv nv S)
    (hnone : next = none → ∀ y ∈ S, Good S y)
    (hsome : ∀ node, next = some node → node ∈ S ∧ (∀ y ∈ S, lexLess y node → Good S y) ∧ rest S node ≤ fuel) :
    ∃ S' aux', auxLoop srt fuel next (S, aux) = some (S', aux') ∧ Inv nv S' ∧ S ⊆ S' ∧
      aux' + S.length = aux + S'.length ∧ ∀ y ∈ S', Good S' y := by
  induction fuel generalizing next S aux with
  | zero =>
    cases next with
    | none => exact ⟨S, aux, rfl, hI, fun y h => h, rfl, hnone rfl⟩
    | some node =>
      obtain ⟨h1, -, h3⟩ := hsome node rfl
      have : 0 < rest S node := by
        apply List.length_pos_of_mem (a := node)
        rw [List.mem_filter]; exact ⟨h1, by simpa using lexLess_irrefl node⟩
      omega
  | succ fuel ih =>
    cases next with
    | none => exact ⟨S, aux, rfl, hI, fun y h => h, rfl, hnone rfl⟩
    | some node =>
      obtain ⟨hmem, hgood, hfuel⟩ := hsome node rfl
      have key : ∀ S1 aux1, Inv nv S1 → S ⊆ S1 → aux1 + S.length = aux + S1.length →
          Good S1 node → (∀ y ∈ S1, y ∉ S → lexLess y node ∧ Good S1 y) →
          ∃ S' aux', auxLoop srt fuel (S1.find? (fun y => lexLess node y)) (S1, aux1) = some (S', aux') ∧ Inv nv S' ∧
            S ⊆ S' ∧ aux' + S.length = aux + S'.length ∧ ∀ y ∈ S', Good S' y := by
        intro S1 aux1 hI1 hsub hcount hgn hnew
        have hg : ∀ y ∈ S1, ¬ lexLess node y → Good S1 y := by
          intro y hy hle
          by_cases hyS : y ∈ S
          · rcases lexLess_tri y node with h | h | h
            · exact (hgood y hyS h).mono hsub
            · exact h ▸ hgn
            · exact absurd h hle
          · exact (hnew y hy hyS).2
        obtain ⟨S', aux', e1, e2, e3, e4, e5⟩ := ih (S1.find? (fun y => lexLess node y)) S1 aux1 hI1
          (by
            intro hn y hy
            apply hg y hy
            rw [List.find?_eq_none] at hn
            simpa using hn y hy)
          (by
            intro node' hn
            obtain ⟨f1, f2, f3⟩ := find_sorted hI1.sorted hn
            refine ⟨f1, ?_, ?_⟩
            · intro y hy hlt
              exact hg y hy (fun h => f3 y hy h hlt)
            · have := rest_lt hI1.sorted hmem (fun y h1 h2 => (hnew y h1 h2).1) f2
              omega)
        exact ⟨S', aux', e1, e2, fun y hy => e3 (hsub hy), by omega, e5⟩
      unfold auxLoop
      by_cases h1 : node.length = 1
      · rw [if_pos h1]
        exact key S aux hI (fun y h => h) rfl (Or.inl h1) (fun y h h' => absurd h h')
      · rw [if_neg h1]
        have hne := hI.ne node hmem
        have hl := List.length_pos_iff.mpr hne
        obtain ⟨S1, aux1, e1, e2, e3, e4, e5, e6⟩ := popLoop_spec hs (node.length + 1) node S aux hI
          (hI.range node hmem) (by omega) (by omega)
        rw [e1]
        exact key S1 aux1 e2 e3 e4 e5 (fun y hy hyS => ⟨Or.inl (e6 y hy hyS).1, (e6 y hy hyS).2⟩)

end Verif.Poly
