import Verif.Proofs.JsonGrammar
import Verif.Proofs.JsonGrammarUtf8
import Verif.Props.JsonText
import Verif.Props.Server
import Verif.Props.Cli
/-
C92: the JSON texts that are accepted, and what they are read as: exactly the grammar of RFC 8259, at most 127 levels deep.
-/
namespace IndraDB
open Rocks Mem JsonGrammar

variable {utf8 : Bytes → Bool} {F : Floats}

theorem strBytes_utf8 (s : String) : IsUtf8 (strBytes s) := by
  have h : (strBytes s).toByteArray = s.toByteArray := by
    apply ByteArray.ext
    apply Array.toList_inj.1
    rw [List.data_toByteArray, strBytes]
    simp
  unfold IsUtf8
  rw [h]
  exact s.isValidUTF8

/-- C92, on disk: bytes are read as a value exactly if they are a JSON text for it. -/
theorem C92_disk (b : Bytes) (v : Json) : (serdeJson utf8 F).dec b = some v ↔ Text utf8 F 127 b v :=
  all_iff 127 b v

/-- White space, escapes, an escaped emoji, repeated keys, large integers, and a number outside the range of integers. -/
example : (serdeJson (fun _ => true) W.floats).dec (strBytes "\t[ 1 ,\n\"\\u00e9\\/\\ud83d\\uDE00\", {\"a\":0,\"b\":true,\"a\":null } ] ") =
    some (.arr (.cons (.num (.posInt 1)) (.cons (.str (strBytes "é/😀"))
      (.cons (.obj (.cons [97] .null (.cons [98] (.bool true) .nil))) .nil)))) := by decide +kernel
example : (serdeJson (fun _ => true) W.floats).dec (strBytes "[18446744073709551615,-9223372036854775808]") =
    some (.arr (.cons (.num (.posInt 18446744073709551615)) (.cons (.num (.negInt 9223372036854775807)) .nil))) := by decide +kernel
example : ∀ t ∈ ["18446744073709551616", "-0", "1.5E+2", "-9223372036854775809"],
    ((serdeJson (fun _ => true) W.floats).dec (strBytes t) matches some (.num (.float _))) = true := by decide +kernel
/-- Refused: a trailing comma, a leading zero, half an emoji, a raw line feed in a string, a value with something behind it, no digits
after the point, a key without quotes. -/
example : ∀ t ∈ ["[1,]", "01", "\"\\ud83d\"", "\"a\nb\"", "1 2", "1.", "{a:1}", "", "nul", "+1", "[1", "\"\\x41\"", "'a'", "-"],
    (serdeJson (fun _ => true) W.floats).dec (strBytes t) = none := by decide +kernel

/-- C92, in messages and on the command line: a string is read as a value exactly if it is a JSON text for it. -/
theorem C92_message (s : String) (v : Json) : (serdeText F).parse s = some v ↔ Text (fun _ => true) F 127 (strBytes s) v :=
  (all_iff 127 (strBytes s) v).trans (text_iff (strBytes_utf8 s) v)

/-- Everything else is refused. -/
theorem C92_refused (s : String) : (serdeText F).parse s = none ↔ ¬ ∃ v, Text (fun _ => true) F 127 (strBytes s) v := by
  simp only [← C92_message]
  cases (serdeText F).parse s <;> simp

theorem C92_disk_refused (b : Bytes) : (serdeJson utf8 F).dec b = none ↔ ¬ ∃ v, Text utf8 F 127 b v := by
  simp only [← C92_disk]
  cases (serdeJson utf8 F).dec b <;> simp

example : ¬ ∃ v, Text (fun _ => true) W.floats 127 (strBytes "[1,]") v := fun ⟨v, h⟩ => by
  have := (C92_disk _ _).2 h
  rw [show (serdeJson (fun _ => true) W.floats).dec (strBytes "[1,]") = none by decide +kernel] at this
  cases this

/-- C92: a text stands for at most one value, whatever the depth. -/
theorem C92_unique (n m : Nat) (b : Bytes) (v w : Json) (hv : Text utf8 F n b v) (hw : Text utf8 F m b w) : v = w :=
  text_unique hv hw

/-- A text of one level. -/
example : Text (fun _ => true) W.floats 1 (strBytes " [\"a\"]") (.arr (.cons (.str [97]) .nil)) :=
  (all_iff 1 _ _).1 (by decide +kernel)

/-- C92: what the datastore writes is a JSON text for the value, up to floats (C91). -/
theorem C92_written (hF : F.Proper) (v w : Json) (ht : v.Typed utf8) (hl : v.levels ≤ 127) (hb : v.back F = some w) :
    Text utf8 F 127 ((serdeJson utf8 F).enc v) w :=
  (C92_disk _ _).1 (by rw [C90_disk hF v ht, if_pos hl, hb])

example : Text utf8Ok W.floats 127 ((serdeJson utf8Ok W.floats).enc W.someJson) W.someJson :=
  C92_written W.floats_proper _ _ W.someJson_typed (by decide) (Json.back_same _ (Json.floatsAre W.floats_back _))

/-- C92, requests: a `set_properties` request with a text for the value is what the library does with the value, and with anything else
it is refused with `INVALID_ARGUMENT` and nothing changes. -/
theorem C92_server (letter : Char → Bool) (S : Store) (env : S.Env) (s : S.State) (q : Query) (n : Identifier) (t : String)
    (hq : q.All (·.Valid letter) (serdeText F).Faithful) (hn : n.Valid letter) :
    let req : Request := .setProperties ⟨some (q.toProto (serdeText F)), some n.toProto, some ⟨t⟩⟩
    (∀ v, Text (fun _ => true) F 127 (strBytes t) v →
      (S.handle letter (serdeText F) env req s).1 = (S.step env (.setProperties q n v) s).1 ∧
      (∀ r, (S.step env (.setProperties q n v) s).2 = .ok r → (S.handle letter (serdeText F) env req s).2 = .ok .empty) ∧
      (∀ f, (S.step env (.setProperties q n v) s).2 = .error f →
        (S.handle letter (serdeText F) env req s).2 = .error (.internal f))) ∧
    ((¬ ∃ v, Text (fun _ => true) F 127 (strBytes t) v) →
      S.handle letter (serdeText F) env req s = (s, .error (.invalidArgument .json))) := by
  intro req
  have h1 := (PQuery.conv_iff letter (serdeText F) _ _).2 (Query.toProto_means letter (serdeText F) q hq)
  have h2 := (PIdentifier.conv_iff letter _ _).2 (Identifier.toProto_means letter hn)
  constructor
  · intro v hv
    have h3 := (C92_message t v).2 hv
    simp only [req, Store.handle, PSetPropertiesRequest.conv, requiredField, h1, h2, PJson.conv, h3, mapConversionResult, Store.serve, bind,
      Except.bind, pure, Except.pure]
    refine ⟨trivial, ?_, ?_⟩ <;> intro r hr <;> rw [hr] <;> rfl
  · intro hv
    have h3 := (C92_refused t).2 hv
    simp only [req, Store.handle, PSetPropertiesRequest.conv, requiredField, h1, h2, PJson.conv, h3, mapConversionResult, Store.serve, bind,
      Except.bind, pure, Except.pure]

/-- C92, the command line: a text that is no JSON is refused before anything is sent. -/
theorem C92_cli (letter : Char → Bool) (parseUuid : String → Option Uuid) (S : Store) (env : S.Env) (s : S.State) (g : Uuid)
    (uuid name t : String) (u : Uuid) (n : Identifier) (hu : parseUuid uuid = some u) (hn : Identifier.new letter name = .ok n) :
    (∀ v, Text (fun _ => true) F 127 (strBytes t) v →
      plan letter (serdeText F) parseUuid g (.setVertexProperty uuid name t) = .ok (.quiet (.setProperties (.specificVertex [u]) n v))) ∧
    ((¬ ∃ v, Text (fun _ => true) F 127 (strBytes t) v) →
      S.cli letter (serdeText F) parseUuid env g (.setVertexProperty uuid name t) s = (s, .error .json)) := by
  constructor
  · intro v hv
    have h3 := (C92_message t v).2 hv
    simp only [plan, buildVertexQuery, argUuid, argIdent, argJson, hu, hn, h3, bind, Except.bind, pure, Except.pure]
  · intro hv
    have h3 := (C92_refused t).2 hv
    simp only [Store.cli, plan, buildVertexQuery, argUuid, argIdent, argJson, hu, hn, h3, bind, Except.bind, pure, Except.pure]

/-- A request with white space and a trailing comma, for a vertex of the memory datastore. -/
example (K : HashEq) (b : Build) (s : (memStore K b).State) (O : HashOrder) :
    (memStore K b).handle asciiAlnum (serdeText W.floats) O
      (.setProperties ⟨some (Query.toProto (serdeText W.floats) (.specificVertex [W.u 1])), some fooIdent.toProto, some ⟨"[1, ]"⟩⟩) s =
    (s, .error (.invalidArgument .json)) := by
  refine (C92_server asciiAlnum (memStore K b) O s (.specificVertex [W.u 1]) fooIdent "[1, ]" trivial fooIdent_valid).2 ?_
  rintro ⟨v, h⟩
  have := (C92_disk (utf8 := fun _ => true) _ _).2 h
  rw [show (serdeJson (fun _ => true) W.floats).dec (strBytes "[1, ]") = none by decide +kernel] at this
  cases this

example (K : HashEq) (b : Build) (s : (memStore K b).State) (O : HashOrder) :
    ((memStore K b).handle asciiAlnum (serdeText W.floats) O
      (.setProperties ⟨some (Query.toProto (serdeText W.floats) (.specificVertex [W.u 1])), some fooIdent.toProto, some ⟨"[1 ]"⟩⟩) s).1 =
    ((memStore K b).step O (.setProperties (.specificVertex [W.u 1]) fooIdent (.arr (.cons (.num (.posInt 1)) .nil))) s).1 := by
  refine ((C92_server asciiAlnum (memStore K b) O s (.specificVertex [W.u 1]) fooIdent "[1 ]" trivial fooIdent_valid).1 _ ?_).1
  exact (C92_disk _ _).1 (by decide +kernel)

example (K : HashEq) (b : Build) (s : (memStore K b).State) (O : HashOrder) :
    (memStore K b).cli asciiAlnum (serdeText W.floats) (fun _ => some (W.u 1)) O (W.u 2) (.setVertexProperty "1" "foo" "{'a':1}") s =
    (s, .error .json) := by
  refine (C92_cli asciiAlnum _ (memStore K b) O s (W.u 2) "1" "foo" "{'a':1}" (W.u 1) fooIdent rfl ((PIdentifier.conv_iff asciiAlnum ⟨"foo"⟩ fooIdent |>.2 ⟨rfl, by decide +kernel⟩) |> fun h => by simp only [PIdentifier.conv] at h; split at h <;> simp_all)).2 ?_
  rintro ⟨v, h⟩
  have := (C92_disk (utf8 := fun _ => true) _ _).2 h
  rw [show (serdeJson (fun _ => true) W.floats).dec (strBytes "{'a':1}") = none by decide +kernel] at this
  cases this

end IndraDB
