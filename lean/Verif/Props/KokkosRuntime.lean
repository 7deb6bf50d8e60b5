import Verif.Model.Kokkos.Runtime
import Verif.Lemmas.Kokkos.Basic

/-!
# Properties of the Kokkos runtime in Python and of `tools_kokkos.cpp` (C125)
-/

namespace Verif.Props
open Verif.Kokkos.Runtime

/-- The operation needs Kokkos. -/
def Uses : Op → Prop
  | .calculator k _ => k = true
  | .generate => True
  | .guarded => True
  | _ => False

/-- The user starts Kokkos without asking, or ends it. -/
def Manual : Op → Prop
  | .init => True
  | .finalize => True
  | _ => False

/-- Started at most once, not ended, and running whenever an object holds views. -/
structure Fine (s : St) : Prop where
  phase : (s.phase = .before ∧ s.inits = 0 ∧ s.live = []) ∨ (s.phase = .running ∧ s.inits = 1)
  lt : ∀ i ∈ s.live, i < s.made
  nodup : s.live.Nodup

theorem fine_start : Fine start := ⟨Or.inl ⟨rfl, rfl, rfl⟩, by simp [start], by simp [start]⟩

theorem ensure_fine {s : St} (h : Fine s) : ∃ t, ensure s = some t ∧ Fine t ∧ t.phase = .running ∧ t.inits = 1 ∧ t.live = s.live ∧ t.made = s.made := by
  rcases h.phase with ⟨h1, h2, h3⟩ | ⟨h1, h2⟩
  · exact ⟨{ s with phase := .running, inits := s.inits + 1 }, by simp [ensure, isInit, init, h1], ⟨Or.inr ⟨rfl, by simp [h2]⟩, h.lt, h.nodup⟩, rfl,
      by simp [h2], rfl, rfl⟩
  · exact ⟨s, by simp [ensure, isInit, h1], h, h1, h2, rfl, rfl⟩

theorem new_fine {s : St} (h : Fine s) (hr : s.phase = .running) :
    new s = some { s with made := s.made + 1, live := s.made :: s.live } ∧ Fine { s with made := s.made + 1, live := s.made :: s.live } := by
  refine ⟨by simp [new, hr], ⟨?_, ?_, ?_⟩⟩
  · rcases h.phase with ⟨h1, -, -⟩ | h1
    · rw [hr] at h1; cases h1
    · exact Or.inr h1
  · intro i hi
    rcases List.mem_cons.1 hi with rfl | hi
    · exact Nat.lt_succ_self _
    · exact Nat.lt_succ_of_lt (h.lt i hi)
  · exact List.nodup_cons.2 ⟨fun hm => absurd (h.lt _ hm) (lt_irrefl _), h.nodup⟩

theorem drop_fine {s : St} (h : Fine s) (i : ℕ) : ∃ t, drop s i = some t ∧ Fine t ∧ t.phase = s.phase ∧ t.inits = s.inits ∧
    t.made = s.made ∧ ∀ j, j ∈ t.live ↔ j ∈ s.live ∧ j ≠ i := by
  by_cases hi : i ∈ s.live
  · have hr : s.phase = .running ∧ s.inits = 1 := by
      rcases h.phase with ⟨-, -, h3⟩ | h1
      · rw [h3] at hi; cases hi
      · exact h1
    refine ⟨{ s with live := s.live.erase i }, by simp [drop, hi, hr.1], ⟨Or.inr hr, fun j hj => h.lt j (List.mem_of_mem_erase hj),
      h.nodup.erase i⟩, rfl, rfl, rfl, fun j => ?_⟩
    rw [h.nodup.mem_erase_iff, and_comm]
  · exact ⟨s, by simp [drop, hi], h, rfl, rfl, rfl, fun j => ⟨fun hj => ⟨hj, fun e => hi (e ▸ hj)⟩, fun hj => hj.1⟩⟩

theorem step_fine {s : St} (h : Fine s) {o : Op} (ho : ¬ Manual o) :
    ∃ t, step s o = some t ∧ Fine t ∧ (t.inits = 1 ↔ s.inits = 1 ∨ Uses o) ∧ s.made ≤ t.made := by
  cases o with
  | calculator k ok =>
    cases k with
    | false => exact ⟨s, rfl, h, by simp [Uses], le_refl _⟩
    | true =>
      obtain ⟨t, e, ht, hr, hi, -, hm⟩ := ensure_fine h
      obtain ⟨e2, h2⟩ := new_fine ht hr
      cases ok with
      | true => exact ⟨_, by simp [step, e, e2], h2, by simp [Uses, hi], by dsimp only; omega⟩
      | false =>
        obtain ⟨u, e3, hu, -, hi', hm', -⟩ := drop_fine h2 t.made
        exact ⟨u, by simp [step, e, e2, e3], hu, by simp [Uses, hi', hi], by rw [hm']; dsimp only; omega⟩
  | generate =>
    obtain ⟨t, e, ht, hr, hi, -, hm⟩ := ensure_fine h
    obtain ⟨e2, h2⟩ := new_fine ht hr
    exact ⟨_, by simp [step, e, e2], h2, by simp [Uses, hi], by dsimp only; omega⟩
  | guarded =>
    obtain ⟨t, e, ht, -, hi, -, hm⟩ := ensure_fine h
    exact ⟨t, e, ht, by simp [Uses, hi], by omega⟩
  | release i =>
    obtain ⟨u, e3, hu, -, hi, hm, -⟩ := drop_fine h i
    exact ⟨u, e3, hu, by simp [Uses, hi], by omega⟩
  | init => exact absurd trivial ho
  | finalize => exact absurd trivial ho

theorem run_fine {os : List Op} (ho : ∀ o ∈ os, ¬ Manual o) {s : St} (h : Fine s) :
    ∃ t, run os s = some t ∧ Fine t ∧ (t.inits = 1 ↔ s.inits = 1 ∨ ∃ o ∈ os, Uses o) := by
  induction os generalizing s with
  | nil => exact ⟨s, rfl, h, by simp⟩
  | cons o os ih =>
    obtain ⟨t, e1, h1, i1, -⟩ := step_fine h (ho o List.mem_cons_self)
    obtain ⟨u, e2, h2, i2⟩ := ih (fun p hp => ho p (List.mem_cons_of_mem _ hp)) h1
    refine ⟨u, by rw [run, e1, Option.bind_some, e2], h2, ?_⟩
    rw [i2, i1]
    simp [or_assoc]

/-- C125, without `_finalize_kokkos` and without `_init_kokkos` unless asked before: any sequence of calculators, views, guarded
starts and releases runs, Kokkos is started
exactly once if something needs it and never otherwise, and runs whenever an object holds views. -/
theorem C125_once_partial (os : List Op) (ho : ∀ o ∈ os, ¬ Manual o) :
    ∃ t, run os start = some t ∧ ((∃ o ∈ os, Uses o) → t.inits = 1 ∧ t.phase = .running) ∧
      ((¬ ∃ o ∈ os, Uses o) → t.inits = 0 ∧ t.phase = .before) ∧ (t.live ≠ [] → t.phase = .running) := by
  obtain ⟨t, e, h, i⟩ := run_fine ho fine_start
  have i' : t.inits = 1 ↔ ∃ o ∈ os, Uses o := i.trans (by simp [start])
  refine ⟨t, e, fun hu => ?_, fun hu => ?_, fun hl => ?_⟩
  · have := i'.2 hu
    rcases h.phase with ⟨-, h2, -⟩ | h1
    · omega
    · exact ⟨h1.2, h1.1⟩
  · rcases h.phase with h1 | ⟨-, h2⟩
    · exact ⟨h1.2.1, h1.1⟩
    · exact absurd (i'.1 h2) hu
  · rcases h.phase with h1 | h1
    · exact absurd h1.2.2 hl
    · exact h1.1

theorem run_append (os ps : List Op) (s : St) : run (os ++ ps) s = (run os s).bind (run ps) := by
  induction os generalizing s with
  | nil => rfl
  | cons o os ih =>
    rw [List.cons_append, run, run]
    cases step s o with
    | none => rfl
    | some t => exact ih t

theorem run_ended_iff {ps : List Op} {s : St} (hs : s.phase = .ended) :
    (run ps s).isSome = true ↔ (∀ o ∈ ps, ¬ Uses o ∧ ¬ Manual o) ∧ ∀ i ∈ s.live, Op.release i ∉ ps := by
  induction ps with
  | nil => simp [run]
  | cons o ps ih =>
    rw [run]
    cases o with
    | calculator k ok =>
      cases k with
      | true => simp [step, ensure, isInit, init, hs, Uses]
      | false => simp [step, Uses, Manual, ih]
    | generate => simp [step, ensure, isInit, init, hs, Uses]
    | guarded => simp [step, ensure, isInit, init, hs, Uses]
    | release j =>
      by_cases hj : j ∈ s.live
      · have : step s (.release j) = none := by simp [step, drop, hj, hs]
        rw [this]
        refine ⟨fun h => by simp at h, fun h => absurd List.mem_cons_self (h.2 j hj)⟩
      · have : step s (.release j) = some s := by simp [step, drop, hj]
        rw [this, Option.bind_some, ih]
        refine and_congr (by simp [Uses, Manual]) (forall₂_congr fun i hi => ?_)
        have : i ≠ j := fun e => hj (e ▸ hi)
        simp [this]
    | init => simp [step, init, hs, Manual]
    | finalize => simp [step, finalize, hs, Manual]

/-- C125, from the first call of `_finalize_kokkos` on: the program is aborted exactly if nothing used Kokkos before it, or something uses, starts or
ends Kokkos after it, or an object that was alive at the call is released after it. -/
theorem C125_finalize (os ps : List Op) (ho : ∀ o ∈ os, ¬ Manual o) :
    ∃ t, run os start = some t ∧ ((run (os ++ .finalize :: ps) start).isSome = true ↔
      (∃ o ∈ os, Uses o) ∧ (∀ o ∈ ps, ¬ Uses o ∧ ¬ Manual o) ∧ ∀ i ∈ t.live, Op.release i ∉ ps) := by
  obtain ⟨t, e, h1, h2, -⟩ := C125_once_partial os ho
  refine ⟨t, e, ?_⟩
  rw [run_append, e, Option.bind_some, run]
  by_cases hu : ∃ o ∈ os, Uses o
  · have hf : step t .finalize = some { t with phase := .ended } := by simp [step, finalize, (h1 hu).2]
    rw [hf, Option.bind_some, run_ended_iff rfl]
    simp [hu]
  · have hf : step t .finalize = none := by simp [step, finalize, (h2 hu).2]
    rw [hf]
    simp [hu]

/-- C125, a start without asking: aborts exactly if Kokkos was needed before it. -/
theorem C125_init (os ps : List Op) (ho : ∀ o ∈ os, ¬ Manual o) (hp : ∀ o ∈ ps, ¬ Manual o) :
    (run (os ++ .init :: ps) start).isSome = true ↔ ∀ o ∈ os, ¬ Uses o := by
  obtain ⟨t, e, h, i⟩ := run_fine ho fine_start
  rw [run_append, e, Option.bind_some, run]
  have i' : t.inits = 1 ↔ ∃ o ∈ os, Uses o := i.trans (by simp [start])
  rcases h.phase with ⟨h1, h2, h3⟩ | ⟨h1, h2⟩
  · have hf : step t .init = some { t with phase := .running, inits := t.inits + 1 } := by simp [step, init, h1]
    obtain ⟨u, eu, -, -⟩ := run_fine hp (s := { t with phase := .running, inits := t.inits + 1 })
      ⟨Or.inr ⟨rfl, by simp [h2]⟩, h.lt, h.nodup⟩
    rw [hf, Option.bind_some, eu]
    exact ⟨fun _ o ho' hu => by have := i'.2 ⟨o, ho', hu⟩; omega, fun _ => rfl⟩
  · have hf : step t .init = none := by simp [step, init, h1]
    rw [hf]
    obtain ⟨o, ho', hu⟩ := i'.1 h2
    exact ⟨fun hh => by simp at hh, fun hh => absurd hu (hh o ho')⟩

/-- C125 is violated: a calculator made after `_finalize_kokkos` asks `_kokkos_is_initialized`, which says no, and starts Kokkos a second time, though
all objects had been released; and a calculator that outlives the call is released too late. -/
theorem C125_violated : run [.calculator true true, .release 0, .finalize, .calculator true true] start = none ∧
    run [.calculator true true, .finalize, .release 0] start = none := by decide

section
open Verif.Par Verif.Par.Prog Verif.Kokkos
variable {K : Type} [Ring K]

/-- C125, `generate_view` and `modify_view`: whatever the order of the threads, element `i` is `-(i+1)`, and every element is doubled. -/
theorem C125_views (L : Launcher K) :
    (∀ n, ∃ v, generateView L n = some v ∧ v.ext = [n] ∧ ∀ i < n, v.get [i] = some (-((i : K) + 1))) ∧
    ∀ (v : View K) (n : ℕ), v.ext = [n] → v.Ok → ∃ w, modifyView L v = some w ∧ w.ext = [n] ∧ ∀ i < n, ∃ x, v.get [i] = some x ∧ w.get [i] = some (x * 2) := by
  refine ⟨fun n => ?_, fun v n hE hv => ?_⟩
  · have hp : Lc (fun _ => [n]) (parFor n (fun i => put (fun _ => [n]) () [i] (((-((i : ℤ) + 1) : ℤ) : K))))
        (ex n fun i => {((), [i])}) (fun a _ => -(((a.2.getD 0 0 : ℕ) : K) + 1)) := by
      refine Lc.parFor (fun i hi => Lc.put (fun _ => by simp)) ?_
      rintro i _ j _ c rfl h
      simpa using h
    obtain ⟨v, k1, k2, -, k4, -⟩ := launch1_any L (v := View.new [n] (0 : K)) hp (by
      rintro c ⟨i, hi, hc⟩
      simp only [Set.mem_singleton_iff, Prod.mk.injEq, true_and] at hc
      subst hc
      exact ⟨0, View.get_new (flat_one hi) 0⟩)
    refine ⟨v, k1, k2, fun i hi => ?_⟩
    rw [k4 [i] 0 ⟨i, hi, rfl⟩ (View.get_new (flat_one hi) 0)]
    simp
  · have hget : ∀ i < n, ∃ x, v.get [i] = some x := by
      intro i hi
      have hl : v.data.length = n := by rw [hv, hE]; simp
      refine ⟨v.data[i]'(by omega), ?_⟩
      unfold View.get
      rw [hE, flat_one hi, Option.bind_some, List.getElem?_eq_getElem (by omega)]
    have hx : v.extent 0 = n := by unfold View.extent; rw [hE]; rfl
    have hp : Lc (fun _ => v.ext) (parFor n (fun i => upd (fun _ => v.ext) () [i] (fun x : K => x * 2)))
        (ex n fun i => {((), [i])}) (fun _ x => x * 2) := by
      refine Lc.parFor (fun i hi => Lc.upd (fun _ => rfl)) ?_
      rintro i _ j _ c rfl h
      simpa using h
    obtain ⟨w, k1, k2, -, k4, -⟩ := launch1_any L (v := v) hp (by
      rintro c ⟨i, hi, hc⟩
      simp only [Set.mem_singleton_iff, Prod.mk.injEq, true_and] at hc
      subst hc
      exact hget i hi)
    refine ⟨w, by unfold modifyView; rw [hx]; exact k1, k2.trans hE, fun i hi => ?_⟩
    obtain ⟨x, hxx⟩ := hget i hi
    exact ⟨x, hxx, k4 [i] x ⟨i, hi, rfl⟩ hxx⟩

end

/-- Two calculators with Kokkos, one without, a file that cannot be read: one start, two objects, one released. -/
example : run [.guarded, .calculator false true, .calculator true true, .calculator true false, .release 0, .calculator true true] start =
    some ⟨.running, 3, [2], 1⟩ := by decide

end Verif.Props
