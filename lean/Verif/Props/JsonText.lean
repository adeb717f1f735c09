import Verif.Proofs.JsonUtf8
import Verif.Props.Observe
import Verif.Props.Proto
import Verif.Props.Msgpack
/-
C90: values as JSON text, on disk (RocksDB) and in messages (gRPC).
-/
namespace IndraDB
open Rocks Mem

variable {utf8 : Bytes → Bool} {F : Floats}

namespace W
/-- The decimal digits of the bits of a float after a point: not what `ryu` does, but an example. -/
def bitsDecimal (n : Nat) : Decimal := ⟨false, [48], digitsOf 20 n, none⟩

/-- An example of `Floats`. -/
def floats : Floats where
  print f := bitsDecimal f.toBits
  parse d := F64.ofBits (JsonRead.decVal 0 d.frac)

theorem bitsDecimal_proper (n : Nat) : (bitsDecimal n).Proper where
  int := ⟨fun x hx => by simp only [bitsDecimal, List.mem_singleton] at hx; subst hx; decide, List.cons_ne_nil _ _, fun _ => rfl⟩
  frac := JsonRead.digitsOf_all _ _
  exp := fun _ _ h => nomatch h
  float := Or.inl (JsonRead.digitsOf_ne _ _)

theorem floats_proper : floats.Proper := fun f => bitsDecimal_proper f.toBits

theorem bitsDecimal_frac {n : Nat} (h : n < 18446744073709551616) : JsonRead.decVal 0 (bitsDecimal n).frac = n :=
  JsonRead.decVal_digitsOf 20 n (Nat.lt_trans h (by decide))

theorem floats_print (f : F64) : floats.print f = bitsDecimal f.toBits := by rw [floats]
theorem floats_parse (d : Decimal) : floats.parse d = F64.ofBits (JsonRead.decVal 0 d.frac) := by rw [floats]

theorem floats_back (f : F64) : floats.back f = some f := by
  have h := (ofBits_toBits f)
  rw [Floats.back, floats_print, floats_parse, bitsDecimal_frac h.2, h.1]

theorem floats_inj (f g : F64) (h : floats.print f = floats.print g) : f = g := by
  have h1 : floats.back f = floats.back g := by rw [Floats.back, Floats.back, h]
  rw [floats_back, floats_back] at h1
  exact Option.some.inj h1

/-- `{"a":["x\ny",-5,null],"b\"":{"c":true}}` -/
def someJson : Json := .obj (.cons [97] (.arr (.cons (.str [120, 10, 121]) (.cons (.num (.negInt 4)) (.cons .null .nil))))
  (.cons [98, 34] (.obj (.cons [99] (.bool true) .nil)) .nil))

theorem someJson_typed : someJson.Typed utf8Ok := by
  refine ⟨utf8Ok_iff.2 (IsUtf8.ascii (by decide)), ⟨by decide, trivial⟩, ⟨utf8Ok_iff.2 (IsUtf8.ascii (by decide)), trivial, trivial, trivial⟩,
    utf8Ok_iff.2 (IsUtf8.ascii (by decide)), trivial, ⟨utf8Ok_iff.2 (IsUtf8.ascii (by decide)), trivial, trivial, trivial⟩, trivial⟩

def serdeCfg : Cfg := ⟨(W.cfg .debug).H, serdeJson utf8Ok floats, .debug⟩
end W

/-- C90, on disk: what was written is read as the same value, except that floats become what their digits are read as; a value nested
more than 127 levels deep, or with a float that cannot be read, is refused. -/
theorem C90_disk (hF : F.Proper) (v : Json) (ht : v.Typed utf8) :
    (serdeJson utf8 F).dec ((serdeJson utf8 F).enc v) = if v.levels ≤ 127 then v.back F else none :=
  JsonRead.all_text hF ht 127

/-- The text of a value, and that it is read back, also with spaces; a value of 128 levels is not. -/
example : (serdeJson utf8Ok W.floats).enc W.someJson = [123, 34, 97, 34, 58, 91, 34, 120, 92, 110, 121, 34, 44, 45, 53, 44, 110, 117, 108, 108,
    93, 44, 34, 98, 92, 34, 34, 58, 123, 34, 99, 34, 58, 116, 114, 117, 101, 125, 125] := by decide +kernel
example : (serdeJson utf8Ok W.floats).dec ((serdeJson utf8Ok W.floats).enc W.someJson) = some W.someJson := by
  rw [C90_disk W.floats_proper _ W.someJson_typed, if_pos (by decide)]
  exact Json.back_same _ (Json.floatsAre W.floats_back _)
example : (serdeJson W.ascii W.floats).dec [32, 91, 49, 32, 44, 10, 92 - 48, 97, 34, 93] = none := by decide +kernel
example : (serdeJson W.ascii W.floats).dec [32, 91, 49, 32, 44, 10, 34, 97, 34, 93, 32] =
    some (.arr (.cons (.num (.posInt 1)) (.cons (.str [97]) .nil))) := by decide +kernel
example : (serdeJson utf8Ok W.floats).dec ((serdeJson utf8Ok W.floats).enc (W.nest 128)) = none := by
  rw [C90_disk W.floats_proper _ (nest_typed 128), if_neg (by rw [nest_levels]; omega)]

/-- C90, in messages. -/
theorem C90_message (hF : F.Proper) (v : Json) (ht : v.Typed utf8Ok) :
    (serdeText F).parse ((serdeText F).print v) = if v.levels ≤ 127 then v.back F else none :=
  serdeText_back hF ht

example : (serdeText W.floats).parse ((serdeText W.floats).print W.someJson) = some W.someJson := by
  rw [C90_message W.floats_proper _ W.someJson_typed, if_pos (by decide)]
  exact Json.back_same _ (Json.floatsAre W.floats_back _)

/-- C90: different values are written as different texts, however deep they are. -/
theorem C90_injective (hF : F.Proper) (hi : ∀ f g, F.print f = F.print g → f = g) (v w : Json) (hv : v.Typed utf8) (hw : w.Typed utf8)
    (h : (serdeJson utf8 F).enc v = (serdeJson utf8 F).enc w) : v = w :=
  text_injective hF hi hv hw h

example : (serdeJson utf8Ok W.floats).enc (W.nest 300) ≠ (serdeJson utf8Ok W.floats).enc (W.nest 301) := fun h => by
  have := C90_injective W.floats_proper W.floats_inj _ _ (nest_typed (utf8 := utf8Ok) 300) (nest_typed 301) h
  have := congrArg Json.levels this
  rw [nest_levels, nest_levels] at this
  omega

/-- C90: a value whose floats come back unchanged is transported by messages exactly if it is at most 127 levels deep. -/
theorem C90_message_faithful (hF : F.Proper) (v : Json) (ht : v.Typed utf8Ok) (hf : v.FloatsAre (fun f => F.back f = some f)) :
    (serdeText F).Faithful v ↔ v.levels ≤ 127 := by
  unfold JsonText.Faithful
  rw [C90_message hF v ht, Json.back_same v hf]
  split
  · simp [*]
  · simp [*]

example : (serdeText W.floats).Faithful (W.nest 127) ∧ ¬ (serdeText W.floats).Faithful (W.nest 128) := by
  have h : ∀ n, (serdeText W.floats).Faithful (W.nest n) ↔ n ≤ 127 := fun n => by
    rw [C90_message_faithful W.floats_proper _ (nest_typed n) (Json.floatsAre W.floats_back _), nest_levels]
  rw [h, h]; omega

/-- C90: the values the RocksDB datastore can read back. -/
theorem C90_rocks_readable (X : Cfg) (hX : X.codec = serdeJson utf8 F) (hF : F.Proper) (v : Json) (ht : v.Typed utf8) :
    Rocks.CanRead X v ↔ v.levels ≤ 127 ∧ v.FloatsAre (fun f => ∃ g, F.back f = some g) := by
  unfold Rocks.CanRead
  rw [hX, C90_disk hF v ht, ← Json.back_some]
  split
  · simp [*]
  · simp [*]

example : Rocks.CanRead W.serdeCfg (W.nest 127) ∧ ¬ Rocks.CanRead W.serdeCfg (W.nest 128) := by
  have h : ∀ n, Rocks.CanRead W.serdeCfg (W.nest n) ↔ n ≤ 127 := fun n => by
    rw [C90_rocks_readable W.serdeCfg rfl W.floats_proper _ (nest_typed n), nest_levels]
    exact ⟨fun h => h.1, fun h => ⟨h, Json.floatsAre (fun f => ⟨f, W.floats_back f⟩) _⟩⟩
  rw [h, h]; omega

/-- What every value of at most 127 levels satisfies, if its floats come back unchanged. -/
def Json.Plain (utf8 : Bytes → Bool) (F : Floats) (v : Json) : Prop :=
  v.Typed utf8 ∧ v.levels ≤ 127 ∧ v.FloatsAre (fun f => F.back f = some f)

theorem Op.ValuesOk.mono {V V' : Json → Prop} (hv : ∀ x, V x → V' x) {op : Op} (h : op.ValuesOk V) : op.ValuesOk V' := by
  cases op with
  | setProperties q n x => exact hv x h
  | bulkInsert items =>
    intro i hi
    have := h i hi
    cases i with
    | vertex _ | edge _ => trivial
    | vertexProperty _ _ x | edgeProperty _ _ x => exact hv x this
  | _ => trivial

theorem rocksStoreOf_run (X : Cfg) (V V' : Json → Prop) (l : List (IdentOrder × Op)) (u : Rocks) :
    (rocksStoreOf X V).run l u = (rocksStoreOf X V').run l u := by
  induction l generalizing u with
  | nil => rfl
  | cons x r ih => exact ih _

theorem Json.Plain.stored {X : Cfg} (hX : X.codec = serdeJson utf8 F) (hF : F.Proper) {v : Json} (h : v.Plain utf8 F) :
    X.codec.dec (X.codec.enc v) = some v := by
  rw [hX, C90_disk hF v h.1, if_pos h.2.1, Json.back_same v h.2.2]

/-- C90, by replies: on a RocksDB datastore into which only such values are written, what `set_properties` wrote is what queries return. -/
theorem C90_rocks_set (X : Cfg) (hX : X.codec = serdeJson utf8 F) (hF : F.Proper) :
    (rocksStoreOf X (Json.Plain utf8 F)).SetPropertiesSeen id := by
  have hc : ∀ v, v.Plain utf8 F → Rocks.CanRead X v := fun v h => ⟨v, h.stored hX hF⟩
  intro s hr env q n x before after hx hp
  obtain ⟨hist, e, hal, ho⟩ := hr
  have hs : (rocksStore X).Reach s := ⟨hist, e.trans (rocksStoreOf_run X _ _ hist _), hal, fun p hp => Op.ValuesOk.mono hc (ho p hp)⟩
  have hst : X.stored x = x := by
    unfold Cfg.stored
    rw [hx.stored hX hF]; rfl
  have := C07_rocks_observed_partial X s hs env q n x before after (hc x hx) hp
  rw [hst] at this
  exact this

/-- A value with a string, a negative number and two objects. -/
example : W.someJson.Plain utf8Ok W.floats := ⟨W.someJson_typed, by decide, Json.floatsAre W.floats_back _⟩
example := (C90_rocks_set W.serdeCfg rfl W.floats_proper
  ((rocksStoreOf W.serdeCfg (Json.Plain utf8Ok W.floats)).run (W.calm [.createVertex ⟨W.u 1, W.t⟩]) Rocks.init)
  ⟨_, rfl, rfl, List.forall_mem_cons.2 ⟨trivial, fun _ h => nomatch h⟩⟩ .sorted (.specificVertex [W.u 1]) W.p W.someJson .sorted .sorted
  ⟨W.someJson_typed, by decide, Json.floatsAre W.floats_back _⟩ (by decide +kernel)).1 [⟨W.u 1, W.t⟩] (by decide +kernel)

/-- C90, by replies: any value nested more deeply is accepted by `set_properties`, and then the property cannot be read. -/
theorem C90_rocks_deep (X : Cfg) (hX : X.codec = serdeJson utf8 F) (hF : F.Proper) (v : Json) (ht : v.Typed utf8) (hv : 127 < v.levels) :
    let S := rocksStoreOf X (fun _ => True)
    let s := S.run (W.calm [.createVertex ⟨W.u 1, W.t⟩]) Rocks.init
    S.Reach s ∧ S.value .sorted (.specificVertex [W.u 1]) s = .ok (.vertices [⟨W.u 1, W.t⟩]) ∧
    (S.step .sorted (.setProperties (.specificVertex [W.u 1]) W.p v) s).2 = .ok .unit ∧
    S.ask .sorted (.pipeProperty (.specificVertex [W.u 1]) (some W.p))
      (S.step .sorted (.setProperties (.specificVertex [W.u 1]) W.p v) s).1 = .error (.err .datastore) :=
  C07_rocks_refuted X v (fun h => by have := ((C90_rocks_readable X hX hF v ht).1 h).1; omega)

example := C90_rocks_deep W.serdeCfg rfl W.floats_proper (W.nest 128) (nest_typed 128) (by rw [nest_levels]; omega)

end IndraDB
