import Verif.Proofs.JsonAccuracy2
import Verif.Props.JsonFloat
import Verif.Props.JsonGrammar
/-
C93: numbers are read accurately, and floats that are written and read again are near the ones before.
-/
namespace IndraDB
open Rocks Mem

variable {utf8 : Bytes → Bool} {print : F64 → Decimal}

/-- C93, reading: the number that the grammar (C92) gives to the text of a number is exact if it is an integer, and otherwise near; a text that has
no number in the grammar is at least `2^1023`. -/
theorem C93_read (t : Bytes) (d : Decimal) (ht : JsonGrammar.Decimal t d) (hl : t.length < 2 ^ 30) :
    (∀ n, JsonGrammar.Number (serdeFloats print) d n → match n with
      | .posInt k => d.neg = false ∧ k.val * d.below = d.above
      | .negInt m => d.neg = true ∧ (m.val + 1) * d.below = d.above
      | .float f => d.Approx f) ∧
    ((¬ ∃ n, JsonGrammar.Number (serdeFloats print) d n) → 2 ^ 1023 * d.below ≤ d.above) := by
  have hu : d.Usual := by
    obtain ⟨neg, hi, hne, _, hf, he⟩ := ht
    simp only [List.length_append] at hl
    refine ⟨hi, ?_, ?_⟩
    · cases hf with
      | none => exact fun x hx => nomatch hx
      | some h _ => exact h
    · show _ + _ < _
      cases hf with
      | none => simp only [List.length_nil] at *; omega
      | some h _ => simp only [List.length_cons] at *; omega
  have hw : d.frac = [] → d.exp = none → d.below = 1 ∧ d.above = digitsVal d.int := by
    intro h1 h2
    unfold Decimal.above Decimal.below Decimal.scale Decimal.digits
    rw [h1, h2]
    simp
  constructor
  · intro n hn
    cases hn with
    | pos n h1 h2 h3 h4 => obtain ⟨e1, e2⟩ := hw h1 h2; exact ⟨h3, by rw [e1, e2, h4, Nat.mul_one]⟩
    | neg m h1 h2 h3 h4 => obtain ⟨e1, e2⟩ := hw h1 h2; exact ⟨h3, by rw [e1, e2, h4, Nat.mul_one]⟩
    | float f _ h => exact d.read_approx hu f h
  · intro hno
    refine d.read_none hu ?_
    cases h : d.read with
    | none => rfl
    | some f =>
      exfalso
      apply hno
      by_cases hfl : d.frac ≠ [] ∨ d.exp ≠ none ∨ (d.neg = false ∧ 2 ^ 64 ≤ digitsVal d.int) ∨
          (d.neg = true ∧ (digitsVal d.int = 0 ∨ 2 ^ 63 < digitsVal d.int))
      · exact ⟨_, .float f hfl h⟩
      · simp only [not_or, not_and, Decidable.not_not, ne_eq] at hfl
        obtain ⟨h1, h2, h3, h4⟩ := hfl
        cases hneg : d.neg with
        | false => exact ⟨_, .pos ⟨digitsVal d.int, by have := h3 hneg; omega⟩ h1 h2 hneg rfl⟩
        | true => exact ⟨_, .neg ⟨digitsVal d.int - 1, by have := h4 hneg; omega⟩ h1 h2 hneg (by have := h4 hneg; show _ = digitsVal d.int - 1 + 1; omega)⟩

/-- The text `-12.50e7`. -/
theorem W.dec_text : JsonGrammar.Decimal (strBytes "-12.50e7") ⟨true, strBytes "12", strBytes "50", some (false, strBytes "7")⟩ :=
  .mk (i := strBytes "12") (tf := strBytes ".50") (te := strBytes "e7") true (by unfold AllDigits; decide +kernel) (by decide +kernel)
    (by decide +kernel) (.some (by unfold AllDigits; decide +kernel) (by decide +kernel))
    (.plain (Or.inl rfl) (by unfold AllDigits; decide +kernel) (by decide +kernel))
example := C93_read (print := W.somePrint) _ _ W.dec_text (by decide +kernel)
example : ∃ f, JsonGrammar.Number (serdeFloats W.somePrint) ⟨true, strBytes "12", strBytes "50", some (false, strBytes "7")⟩ (.float f) ∧
    f.neg = true ∧ f.units = 125000000 * 2 ^ 1074 :=
  ⟨⟨true, ⟨1049, by decide⟩, ⟨3885008372629504, by decide⟩⟩, .float _ (Or.inl (by decide +kernel)) (by decide +kernel), rfl, by decide +kernel⟩

/-- The printed digits of a float are digits, and the float is the one they stand for. -/
def WrittenWell (print : F64 → Decimal) (f : F64) : Prop := (print f).Usual ∧ (print f).Means f

/-- C93, one float: what is read is near what was written; floats below `2^1022` are always read. -/
theorem C93_float (f : F64) (h : WrittenWell print f) :
    (∀ g, (serdeFloats print).back f = some g → f.Near g) ∧ (f.units < 2 ^ 2096 → ∃ g, (serdeFloats print).back f = some g) :=
  ⟨fun g hg => F64.near_of h.2 (Decimal.read_approx _ h.1 g hg), fun hf => Decimal.read_small h.1 h.2 hf⟩

/-- For `9.060756452069219`, which does not come back unchanged (C91). -/
theorem W.well_f0 : WrittenWell W.somePrint W.f0 := by
  unfold WrittenWell
  rw [W.print_f0]
  exact ⟨⟨by unfold AllDigits; decide +kernel, by unfold AllDigits; decide +kernel, by decide +kernel⟩, W.d0_means⟩
example : W.f0.Near W.f1 := (C93_float W.f0 W.well_f0).1 _ (C91_refuted W.print_f0).2.1

/-- Values whose floats are below `2^1022`. -/
def Json.Ordinary (utf8 : Bytes → Bool) (print : F64 → Decimal) (v : Json) : Prop :=
  v.Typed utf8 ∧ v.levels ≤ 127 ∧ v.FloatsAre (fun f => WrittenWell print f ∧ f.units < 2 ^ 2096)

theorem Json.Ordinary.stored {X : Cfg} (hX : X.codec = serdeJson utf8 (serdeFloats print)) (hF : (serdeFloats print).Proper) {v : Json}
    (h : v.Ordinary utf8 print) : Rocks.CanRead X v ∧ v.Near (X.stored v) := by
  obtain ⟨ht, hl, hf⟩ := h
  have hb : ∃ w, v.back (serdeFloats print) = some w :=
    (Json.back_some v).2 (Json.FloatsAre.mono (fun f h => (C93_float f h.1).2 h.2) hf)
  obtain ⟨w, hw⟩ := hb
  have hc : X.codec.dec (X.codec.enc v) = some w := by rw [hX, C90_disk hF v ht, if_pos hl, hw]
  refine ⟨⟨w, hc⟩, ?_⟩
  unfold Cfg.stored
  rw [hc]
  exact Json.near_back (fun f g h hg => (C93_float f h.1).1 g hg) hf hw

/-- C93, in messages: what arrives is near what was sent. -/
theorem C93_message (hF : (serdeFloats print).Proper) (v : Json) (hv : v.Ordinary utf8Ok print) :
    ∃ w, (serdeText (serdeFloats print)).parse ((serdeText (serdeFloats print)).print v) = some w ∧ v.Near w := by
  obtain ⟨ht, hl, hf⟩ := hv
  obtain ⟨w, hw⟩ : ∃ w, v.back (serdeFloats print) = some w :=
    (Json.back_some v).2 (Json.FloatsAre.mono (fun f h => (C93_float f h.1).2 h.2) hf)
  exact ⟨w, by rw [C90_message hF v ht, if_pos hl, hw], Json.near_back (fun f g h hg => (C93_float f h.1).1 g hg) hf hw⟩

/-- C93, by replies: on a RocksDB datastore into which such values are written, `set_properties` works, and queries return a value near the
one that was set, for all vertices and edges that the query returned. -/
theorem C93_rocks (X : Cfg) (hX : X.codec = serdeJson utf8 (serdeFloats print)) (hF : (serdeFloats print).Proper) (s : Rocks)
    (hr : (rocksStoreOf X (Json.Ordinary utf8 print)).Reach s) (env before after : IdentOrder) (q : Query) (n : Identifier) (x : Json)
    (hx : x.Ordinary utf8 print) :
    let S := rocksStoreOf X (Json.Ordinary utf8 print)
    let s' := (S.step env (.setProperties q n x) s).1
    ∃ w, x.Near w ∧
      (∀ vs, S.value env q s = .ok (.vertices vs) →
        (S.step env (.setProperties q n x) s).2 = .ok .unit ∧ ∀ v ∈ vs, S.seesVProp after s' v.id n = some w) ∧
      (∀ es, S.value env q s = .ok (.edges es) → (S.step env (.setProperties q n x) s).2 = .ok .unit ∧
        ∀ e ∈ es, S.seesEdge before s e = true → S.seesEProp after s' e n = some w) := by
  obtain ⟨hist, e, hal, ho⟩ := hr
  have hs : (rocksStore X).Reach s := ⟨hist, e.trans (rocksStoreOf_run X _ _ hist _), hal,
    fun p hp => Op.ValuesOk.mono (fun _ h => (Json.Ordinary.stored hX hF h).1) (ho p hp)⟩
  obtain ⟨hc, hn⟩ := Json.Ordinary.stored hX hF hx
  have hp : ((rocksStore X).step env (.setProperties q n x) s).2 ≠ .error .panic :=
    Rocks.step_no_panic env _ s (inv_reach hs) hc
  have h := C07_rocks_observed_partial X s hs env q n x before after hc hp
  exact ⟨_, hn, fun vs hv => ⟨(h.1 vs hv).1, (h.1 vs hv).2.2.1⟩, fun es he => ⟨(h.2 es he).1, (h.2 es he).2.2.1⟩⟩

example := (C93_rocks W.floatCfg rfl W.somePrint_proper
  ((rocksStoreOf W.floatCfg (Json.Ordinary utf8Ok W.somePrint)).run (W.calm [.createVertex ⟨W.u 1, W.t⟩]) Rocks.init)
  ⟨_, rfl, rfl, List.forall_mem_cons.2 ⟨trivial, fun _ h => nomatch h⟩⟩ .sorted .sorted .sorted (.specificVertex [W.u 1]) W.p
  (.num (.float W.f0)) ⟨trivial, by decide, W.well_f0, by decide +kernel⟩)

end IndraDB
