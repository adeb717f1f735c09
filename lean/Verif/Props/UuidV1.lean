import Verif.Model.UuidV1
import Verif.Props.Memory
import Verif.Props.Rocks
/-
C48: ids generated by `create_vertex_from_type`.
-/
set_option linter.unusedSimpArgs false
namespace IndraDB

/-! ### Specification -/

/-- The clock reading in 100 ns steps since the Unix epoch. -/
def Clock.steps (c : Clock) : Nat := c.secs * 10000000 + c.nanos / 100

/-- 100 ns steps from 1582-10-15 to 1970-01-01. -/
def gregorianOffset : Nat := 122192928000000000

/-! ### Proofs -/

theorem Clock.ticks_mod (c : Clock) : c.ticks % 2^60 = (gregorianOffset + c.steps) % 2^60 := by
  unfold Clock.ticks Clock.steps gregorianOffset; omega

theorem ofNat_eq {a b : Nat} : UInt8.ofNat a = UInt8.ofNat b ↔ a % 256 = b % 256 := by
  constructor
  · intro h; have := congrArg UInt8.toNat h; simpa using this
  · intro h; apply UInt8.toNat_inj.1; simpa using h

/-- The id determines the tick (modulo `2^60`) and the counter (modulo `2^14`), and nothing else. -/
theorem packV1_inj (t t' c c' : Nat) (n : Bytes) (h : n.length = 6) :
    packV1 t c n h = packV1 t' c' n h ↔ t % 2^60 = t' % 2^60 ∧ c % 2^14 = c' % 2^14 := by
  simp only [packV1, Uuid.mk.injEq, List.cons_append, List.nil_append, List.cons.injEq, and_true, ofNat_eq]
  constructor
  · rintro ⟨h0, h1, h2, h3, h4, h5, h6, h7, h8, h9⟩
    constructor <;> omega
  · rintro ⟨h0, h1⟩
    refine ⟨?_, ?_, ?_, ?_, ?_, ?_, ?_, ?_, ?_, ?_⟩ <;> omega

theorem generateAll_get : ∀ (cl : List Clock) (count i : Nat), (generateAll cl count)[i]? =
    (cl[i]?).map (fun c => packV1 c.ticks ((count + i) % 2^16 % 2^14) nodeId nodeId_length)
  | [], _, _ => by simp [generateAll]
  | c :: r, count, 0 => by
    simp only [generateAll, List.getElem?_cons_zero, Option.map_some, generateUuidV1]
    congr 2; omega
  | c :: r, count, i + 1 => by
    simp only [generateAll, List.getElem?_cons_succ, generateUuidV1]
    rw [generateAll_get r]
    congr 1; funext c; congr 1; omega

/-- Two ids generated in one process, the `i`-th and the `j`-th, are equal exactly if the clock showed the same tick
(of 100 ns, modulo `2^60` ticks, about 3650 years) and the calls are a multiple of 16384 apart. -/
theorem C48_ids (cl : List Clock) (i j : Nat) (a b : Clock) (ha : cl[i]? = some a) (hb : cl[j]? = some b) :
    (generateAll cl 0)[i]? = (generateAll cl 0)[j]? ↔
      a.steps % 2^60 = b.steps % 2^60 ∧ i % 2^14 = j % 2^14 := by
  rw [generateAll_get, generateAll_get, ha, hb]
  rw [Option.map_some, Option.map_some, Option.some.injEq, packV1_inj, Clock.ticks_mod, Clock.ticks_mod]
  refine and_congr ?_ ?_ <;> omega

/-- The first and the 16385th id of a clock that stands still are equal; the second is different. -/
example : (generateAll (List.replicate 16385 ⟨1700000000, 5⟩) 0)[0]? = (generateAll (List.replicate 16385 ⟨1700000000, 5⟩) 0)[16384]? ∧
    (generateAll (List.replicate 16385 ⟨1700000000, 5⟩) 0)[0]? ≠ (generateAll (List.replicate 16385 ⟨1700000000, 5⟩) 0)[1]? :=
  ⟨(C48_ids _ 0 16384 ⟨1700000000, 5⟩ ⟨1700000000, 5⟩ (by rw [List.getElem?_replicate]; rfl) (by rw [List.getElem?_replicate]; rfl)).2
      ⟨rfl, rfl⟩,
    fun h => absurd ((C48_ids _ 0 1 ⟨1700000000, 5⟩ ⟨1700000000, 5⟩ (by rw [List.getElem?_replicate]; rfl)
      (by rw [List.getElem?_replicate]; rfl)).1 h).2 (by decide)⟩

/-- All `n` calls get an id. -/
theorem C48_count (cl : List Clock) : (generateAll cl 0).length = cl.length := by
  suffices ∀ n, (generateAll cl n).length = cl.length from this 0
  induction cl with
  | nil => intro n; rfl
  | cons c r ih => intro n; simp [generateAll, ih]

/-- If the clock never goes backwards (in the order of the calls) and shows a date before the year 5236, equal ids are
only generated if more than 16384 calls in a row see the same 100 ns tick. -/
theorem C48_monotone_partial (cl : List Clock)
    (hm : ∀ (i j : Nat) (a b : Clock), i ≤ j → cl[i]? = some a → cl[j]? = some b → a.steps ≤ b.steps)
    (hy : ∀ c ∈ cl, gregorianOffset + c.steps < 2^60)
    (i j : Nat) (hij : i < j) (hj : j < cl.length) (he : (generateAll cl 0)[i]? = (generateAll cl 0)[j]?) :
    j - i ≥ 16384 ∧ ∀ (k : Nat) (c : Clock), i ≤ k → k ≤ j → cl[k]? = some c → some c.steps = (cl[i]?).map Clock.steps := by
  have hi : i < cl.length := by omega
  have ha := List.getElem?_eq_getElem hi
  have hb := List.getElem?_eq_getElem hj
  obtain ⟨h1, h2⟩ := (C48_ids cl i j _ _ ha hb).1 he
  have h3 := hy _ (List.getElem_mem hi)
  have h4 := hy _ (List.getElem_mem hj)
  refine ⟨by omega, fun k c hik hkj hc => ?_⟩
  have h5 := hm i k _ c hik ha hc
  have h6 := hm k j c _ hkj hc hb
  rw [ha, Option.map_some, Option.some.injEq]
  omega

/-- The clock that stands still meets all hypotheses, and its first and 16385th id are equal. -/
example := C48_monotone_partial (List.replicate 16385 ⟨1700000000, 5⟩)
  (fun i j a b _ ha hb => by
    have h1 := List.eq_of_mem_replicate (List.mem_of_getElem? ha)
    have h2 := List.eq_of_mem_replicate (List.mem_of_getElem? hb)
    rw [h1, h2]; exact Nat.le_refl _)
  (fun c hc => by rw [List.eq_of_mem_replicate hc]; decide) 0 16384 (by decide) (by rw [List.length_replicate]; decide)
  ((C48_ids _ 0 16384 ⟨1700000000, 5⟩ ⟨1700000000, 5⟩ (by rw [List.getElem?_replicate]; rfl)
    (by rw [List.getElem?_replicate]; rfl)).2 ⟨rfl, rfl⟩)

theorem C48_refuted_aux (n m : Nat) (hn : n = m + 1) (hm : m = 16384) :
    ∃ cl : List Clock, (generateAll cl 0)[0]? = (generateAll cl 0)[m]? ∧ cl.length = n ∧
    ∀ (i j k : Nat) (a b c : Clock), i < j → j < k → cl[i]? = some a → cl[j]? = some b → cl[k]? = some c →
      ¬ (a.steps = b.steps ∧ b.steps = c.steps) := by
  have hget : ∀ i c, ((List.range n).map (fun n => (⟨0, 100 * (n % m)⟩ : Clock)))[i]? = some c ↔
      i < n ∧ c = ⟨0, 100 * (i % m)⟩ := by
    intro i c
    simp only [List.getElem?_map, Option.map_eq_some_iff, List.getElem?_eq_some_iff, List.getElem_range,
      List.length_range]
    constructor
    · rintro ⟨_, ⟨h, rfl⟩, rfl⟩; exact ⟨h, rfl⟩
    · rintro ⟨h, rfl⟩; exact ⟨i, ⟨h, rfl⟩, rfl⟩
  refine ⟨(List.range n).map (fun n => ⟨0, 100 * (n % m)⟩), ?_, by simp [hn], ?_⟩
  · refine (C48_ids _ 0 m ⟨0, 100 * (0 % m)⟩ ⟨0, 100 * (m % m)⟩ ((hget _ _).2 ⟨by omega, rfl⟩)
      ((hget _ _).2 ⟨by omega, rfl⟩)).2 ⟨by simp, ?_⟩
    subst hm; rfl
  · intro i j k a b c hij hjk ha hb hc
    obtain ⟨h1, rfl⟩ := (hget _ _).1 ha
    obtain ⟨h2, rfl⟩ := (hget _ _).1 hb
    obtain ⟨h3, rfl⟩ := (hget _ _).1 hc
    subst hm
    simp only [Clock.steps]
    omega

/-- The property as stated fails if the clock is set back (or if a thread is delayed between reading the clock and
taking its counter): 16385 calls, no tick is seen by more than two of them, and the first and the last id are equal. -/
theorem C48_refuted : ∃ (cl : List Clock) (m : Nat), m = 16384 ∧ cl.length = m + 1 ∧
    (generateAll cl 0)[0]? = (generateAll cl 0)[m]? ∧
    ∀ (i j k : Nat) (a b c : Clock), i < j → j < k → cl[i]? = some a → cl[j]? = some b → cl[k]? = some c →
      ¬ (a.steps = b.steps ∧ b.steps = c.steps) := by
  obtain ⟨m, hm⟩ : ∃ m, m = 16384 := ⟨_, rfl⟩
  obtain ⟨cl, h1, h2, h3⟩ := C48_refuted_aux (m + 1) m (Eq.refl (m + 1)) hm
  exact ⟨cl, m, hm, h2, h1, h3⟩

/-- `create_vertex_from_type` with an id that is taken fails with `UuidTaken` and leaves the vertex as it is; with a
fresh id it returns the id and adds the vertex: both datastores, every reachable state. -/
theorem C48_taken (K : HashEq) (b : Build) (X : Cfg) :
    (memStore K b).CreateVertexFromTypeExact ∧ (rocksStore X).CreateVertexFromTypeExact :=
  ⟨(memConforms K b).createVertexFromType, (Rocks.conforms X).createVertexFromType⟩

/-- Two calls within one tick; the same clock reading 16384 calls apart. -/
example : generateAll [⟨1700000000, 5⟩, ⟨1700000000, 99⟩] 0 =
    [⟨[0x04, 0xaf, 0xc0, 0x00, 0x83, 0x3b, 0x11, 0xee, 0x80, 0, 0, 0, 0, 0, 0, 0], rfl⟩,
     ⟨[0x04, 0xaf, 0xc0, 0x00, 0x83, 0x3b, 0x11, 0xee, 0x80, 1, 0, 0, 0, 0, 0, 0], rfl⟩] := by decide +kernel

/-- The hypotheses of `C48_monotone_partial` hold for a clock that advances one tick per call. -/
example : (∀ c ∈ [(⟨1, 0⟩ : Clock), ⟨1, 100⟩, ⟨1, 250⟩], gregorianOffset + c.steps < 2^60) ∧
    ([(⟨1, 0⟩ : Clock), ⟨1, 100⟩, ⟨1, 250⟩].Pairwise (fun a b => a.steps ≤ b.steps)) := by
  simp [Clock.steps, gregorianOffset]

end IndraDB
