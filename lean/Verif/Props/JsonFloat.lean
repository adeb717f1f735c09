import Verif.Proofs.JsonFloat
import Verif.Props.JsonText
/-
C91: floats that are written come back unchanged. False: the digits are not always read as the float they stand for.
-/
namespace IndraDB
open Rocks Mem

variable {utf8 : Bytes → Bool} {print : F64 → Decimal}

/-- The digits written for a float are few, and it is the float they stand for. -/
def WrittenShort (print : F64 → Decimal) (f : F64) : Prop := (print f).Short ∧ (print f).Means f

namespace W
/-- `9.060756452069219` -/
def f0 : F64 := ⟨false, ⟨1026, by decide⟩, ⟨597152795283723, by decide⟩⟩
/-- The next float, `9.06075645206922`. -/
def f1 : F64 := ⟨false, ⟨1026, by decide⟩, ⟨597152795283724, by decide⟩⟩
/-- The shortest digits that stand for `f0`. -/
def d0 : Decimal := ⟨false, strBytes "9", strBytes "060756452069219", none⟩
/-- `0.1`, and its digits. -/
def fTenth : F64 := ⟨false, ⟨1019, by decide⟩, ⟨2702159776422298, by decide⟩⟩
def dTenth : Decimal := ⟨false, strBytes "0", strBytes "1", none⟩
/-- `-1.5e22`, and its digits. -/
def fBig : F64 := ⟨true, ⟨1096, by decide⟩, ⟨2648957745676379, by decide⟩⟩
def dBig : Decimal := ⟨true, strBytes "1", strBytes "5", some (false, strBytes "22")⟩

/-- A printer that writes those digits for these floats. -/
def somePrint (f : F64) : Decimal :=
  if f = f0 then d0 else if f = fTenth then dTenth else if f = fBig then dBig else bitsDecimal f.toBits

theorem d0_means : d0.Means f0 :=
  d0.means_of f0 1025 5100752422654219 (d0.above * 2 ^ 1074 % (d0.below * 2 ^ 1025)) 5100752422654219 rfl (by decide +kernel) (by decide +kernel)
    (by decide +kernel) (by decide +kernel) (by decide +kernel) (by decide +kernel) (by decide +kernel)

theorem dTenth_means : dTenth.Means fTenth :=
  dTenth.means_of fTenth 1018 7205759403792793 (dTenth.above * 2 ^ 1074 % (dTenth.below * 2 ^ 1018)) 7205759403792794 rfl (by decide +kernel)
    (by decide +kernel) (by decide +kernel) (by decide +kernel) (by decide +kernel) (by decide +kernel) (by decide +kernel)

theorem dBig_means : dBig.Means fBig :=
  dBig.means_of fBig 1095 7152557373046875 (dBig.above * 2 ^ 1074 % (dBig.below * 2 ^ 1095)) 7152557373046875 rfl (by decide +kernel)
    (by decide +kernel) (by decide +kernel) (by decide +kernel) (by decide +kernel) (by decide +kernel) (by decide +kernel)

theorem print_tenth : somePrint fTenth = dTenth := by decide +kernel
theorem print_big : somePrint fBig = dBig := by decide +kernel
theorem print_f0 : somePrint f0 = d0 := by decide +kernel

theorem short_tenth : WrittenShort somePrint fTenth := by
  unfold WrittenShort
  rw [print_tenth]
  exact ⟨by unfold Decimal.Short; decide +kernel, dTenth_means⟩

theorem short_big : WrittenShort somePrint fBig := by
  unfold WrittenShort
  rw [print_big]
  exact ⟨by unfold Decimal.Short; decide +kernel, dBig_means⟩

theorem d0_proper : d0.Proper :=
  ⟨by unfold AllDigits; decide +kernel, by unfold AllDigits; decide +kernel, fun _ _ h => (nomatch h), Or.inl (by decide +kernel)⟩

theorem somePrint_proper : (serdeFloats somePrint).Proper := by
  intro f
  show (somePrint f).Proper
  unfold somePrint
  split
  · exact d0_proper
  · split
    · exact ⟨by unfold AllDigits; decide +kernel, by unfold AllDigits; decide +kernel, fun _ _ h => (nomatch h), Or.inl (by decide +kernel)⟩
    · split
      · refine ⟨by unfold AllDigits; decide +kernel, by unfold AllDigits; decide +kernel, fun neg e h => ?_, Or.inl (by decide +kernel)⟩
        cases h
        unfold AllDigits; decide +kernel
      · exact bitsDecimal_proper _

theorem d0_read : d0.read = some f1 := by decide +kernel
end W

/-- What is true of C91: a float that is written with few digits (below 2^53, which all numbers of at most 15 digits are, with a power of
ten between -22 and 22) comes back unchanged. Missing: other floats, see `C91_refuted`. -/
theorem C91_partial (f : F64) (h : WrittenShort print f) : (serdeFloats print).back f = some f :=
  Decimal.read_short _ _ h.1 h.2

/-- For `0.1` and `-1.5e22`. -/
example : (serdeFloats W.somePrint).back W.fTenth = some W.fTenth ∧ (serdeFloats W.somePrint).back W.fBig = some W.fBig :=
  ⟨C91_partial _ W.short_tenth, C91_partial _ W.short_big⟩

/-- C91 fails: `9.060756452069219`, whose digits stand for that float and for no other, is read as another float. -/
theorem C91_refuted (h : print W.f0 = W.d0) :
    (print W.f0).Means W.f0 ∧ (serdeFloats print).back W.f0 = some W.f1 ∧ W.f1 ≠ W.f0 := by
  refine ⟨h ▸ W.d0_means, ?_, by decide⟩
  show Decimal.read (print W.f0) = some W.f1
  rw [h]
  exact W.d0_read

example := C91_refuted W.print_f0

/-- Values without other floats. -/
def Json.Precise (utf8 : Bytes → Bool) (print : F64 → Decimal) (v : Json) : Prop :=
  v.Typed utf8 ∧ v.levels ≤ 127 ∧ v.FloatsAre (WrittenShort print)

mutual
theorem Json.FloatsAre.mono {P Q : F64 → Prop} (h : ∀ f, P f → Q f) : ∀ {v : Json}, v.FloatsAre P → v.FloatsAre Q
  | .num (.float f), hv => h f hv
  | .num (.posInt _), _ | .num (.negInt _), _ | .null, _ | .bool _, _ | .str _, _ => trivial
  | .arr a, hv => JArr.FloatsAre.mono h (v := a) hv
  | .obj o, hv => JObj.FloatsAre.mono h (v := o) hv
theorem JArr.FloatsAre.mono {P Q : F64 → Prop} (h : ∀ f, P f → Q f) : ∀ {v : JArr}, v.FloatsAre P → v.FloatsAre Q
  | .nil, _ => trivial
  | .cons _ _, hv => ⟨Json.FloatsAre.mono h hv.1, JArr.FloatsAre.mono h hv.2⟩
theorem JObj.FloatsAre.mono {P Q : F64 → Prop} (h : ∀ f, P f → Q f) : ∀ {v : JObj}, v.FloatsAre P → v.FloatsAre Q
  | .nil, _ => trivial
  | .cons _ _ _, hv => ⟨Json.FloatsAre.mono h hv.1, JObj.FloatsAre.mono h hv.2⟩
end

theorem Json.Precise.plain {v : Json} (h : v.Precise utf8 print) : v.Plain utf8 (serdeFloats print) :=
  ⟨h.1, h.2.1, Json.FloatsAre.mono (fun f hf => C91_partial f hf) h.2.2⟩

/-- What is true of C91, by replies: on a RocksDB datastore into which only such values are written, what `set_properties` wrote is what
queries return. Missing: other floats, see `C91_rocks_refuted`. -/
theorem C91_rocks_partial (X : Cfg) (hX : X.codec = serdeJson utf8 (serdeFloats print)) (hF : (serdeFloats print).Proper) :
    (rocksStoreOf X (Json.Precise utf8 print)).SetPropertiesSeen id := by
  intro s hr env q n x before after hx hp
  obtain ⟨hist, e, hal, ho⟩ := hr
  have hs : (rocksStoreOf X (Json.Plain utf8 (serdeFloats print))).Reach s :=
    ⟨hist, e.trans (rocksStoreOf_run X _ _ hist _), hal, fun p hp => Op.ValuesOk.mono (fun _ h => Json.Precise.plain h) (ho p hp)⟩
  exact C90_rocks_set X hX hF s hs env q n x before after (Json.Precise.plain hx) hp

/-- Such values keep their place in an index: the hash of what is read is the hash of what was written. -/
theorem C91_rocks_same_hash (X : Cfg) (hX : X.codec = serdeJson utf8 (serdeFloats print)) (hF : (serdeFloats print).Proper) (v : Json)
    (hv : v.Precise utf8 print) : SameHash X v := by
  unfold SameHash Cfg.stored
  rw [hv.plain.stored hX hF]
  rfl

/-- C91, by replies: such values are transported unchanged by messages. Missing: other floats. -/
theorem C91_message_partial (hF : (serdeFloats print).Proper) (v : Json) (hv : v.Precise utf8Ok print) :
    (serdeText (serdeFloats print)).Faithful v :=
  (C90_message_faithful hF v hv.1 hv.plain.2.2).2 hv.2.1

namespace W
def floatCfg : Cfg := ⟨Sip.hash, serdeJson utf8Ok (serdeFloats somePrint), .debug⟩
/-- `{"price":[0.1,-1.5e22]}` -/
def floatJson : Json := .obj (.cons [112, 114, 105, 99, 101] (.arr (.cons (.num (.float fTenth)) (.cons (.num (.float fBig)) .nil))) .nil)
theorem floatJson_precise : floatJson.Precise utf8Ok somePrint :=
  ⟨⟨utf8Ok_iff.2 (IsUtf8.ascii (by decide)), trivial, ⟨trivial, trivial, trivial⟩, trivial⟩, by decide, ⟨short_tenth, short_big, trivial⟩, trivial⟩
end W

example := (C91_rocks_partial W.floatCfg rfl W.somePrint_proper
  ((rocksStoreOf W.floatCfg (Json.Precise utf8Ok W.somePrint)).run (W.calm [.createVertex ⟨W.u 1, W.t⟩]) Rocks.init)
  ⟨_, rfl, rfl, List.forall_mem_cons.2 ⟨trivial, fun _ h => nomatch h⟩⟩ .sorted (.specificVertex [W.u 1]) W.p W.floatJson .sorted .sorted
  W.floatJson_precise (by decide +kernel)).1 [⟨W.u 1, W.t⟩] (by decide +kernel)
example := C91_rocks_same_hash W.floatCfg rfl W.somePrint_proper _ W.floatJson_precise
example := C91_message_partial W.somePrint_proper _ W.floatJson_precise

/-- C91 fails, by replies: whatever else is printed for floats, if `9.060756452069219` is written with its shortest digits, then after it is
set on a vertex the property is the next float. -/
theorem C91_rocks_refuted (X : Cfg) (hX : X.codec = serdeJson utf8 (serdeFloats print)) (hF : (serdeFloats print).Proper)
    (h : print W.f0 = W.d0) : ¬ (rocksStoreOf X (fun v => Rocks.CanRead X v ∧ v.Typed utf8 ∧ v.levels ≤ 127)).SetPropertiesSeen id := by
  intro hall
  have hty : (Json.num (.float W.f0)).Typed utf8 ∧ (Json.num (.float W.f0)).levels ≤ 127 := ⟨trivial, by decide⟩
  have hne : Json.num (.float W.f1) ≠ .num (.float W.f0) := fun e => (C91_refuted h).2.2 (Num.float.inj (Json.num.inj e))
  have hc : X.codec.dec (X.codec.enc (.num (.float W.f0))) = some (.num (.float W.f1)) := by
    rw [hX, C90_disk hF (.num (.float W.f0)) trivial, if_pos (by decide)]
    show ((Floats.back _ W.f0).map Num.float).map Json.num = _
    rw [(C91_refuted h).2.1]
    rfl
  obtain ⟨s, hr, hv, hp⟩ : ∃ s, (∀ V, (rocksStoreOf X V).Reach s) ∧
      (rocksStore X).value .sorted (.specificVertex [W.u 1]) s = .ok (.vertices [⟨W.u 1, W.t⟩]) ∧
      ∀ v, ((rocksStore X).step .sorted (.setProperties (.specificVertex [W.u 1]) W.p v) s).2 = .ok .unit := by
    refine ⟨(rocksStore X).run (W.calm [.createVertex ⟨W.u 1, W.t⟩]) Rocks.init, fun V => ⟨W.calm [.createVertex ⟨W.u 1, W.t⟩],
      rocksStoreOf_run X _ _ _ _, rfl, List.forall_mem_cons.2 ⟨trivial, fun _ h => nomatch h⟩⟩, ?_, fun v => ?_⟩
    · obtain ⟨H, c, b⟩ := X; cases b <;> kernel_rfl
    · obtain ⟨H, c, b⟩ := X; cases b <;> kernel_rfl
  have h3 : X.stored (.num (.float W.f0)) = .num (.float W.f1) := by unfold Cfg.stored; rw [hc]; rfl
  generalize (Json.num (.float W.f0)) = v0 at *
  generalize (Json.num (.float W.f1)) = v1 at *
  have hp' : ((rocksStore X).step .sorted (.setProperties (.specificVertex [W.u 1]) W.p v0) s).2 ≠ .error .panic := by
    rw [hp]; exact fun h => nomatch h
  have h1 := ((C07_rocks_observed_partial X s (hr _) .sorted (.specificVertex [W.u 1]) W.p v0 .sorted .sorted ⟨_, hc⟩ hp').1
    _ hv).2.2.1 _ (List.mem_singleton.2 rfl)
  have h2 := ((hall s (hr _) .sorted (.specificVertex [W.u 1]) W.p v0 .sorted .sorted ⟨⟨_, hc⟩, hty⟩ hp').1 _ hv).2.2.1 _
    (List.mem_singleton.2 rfl)
  rw [h3] at h1
  exact hne (Option.some.inj (h1.symm.trans h2))

/-- C91 fails, and with it the index: the vertex is listed for the value that was set, but its property is another value, for which
nothing is listed. -/
theorem C91_rocks_index_refuted :
    let S := rocksStoreOf W.floatCfg (Rocks.CanRead W.floatCfg)
    let s := S.run (W.calm [.createVertex ⟨W.u 1, W.t⟩, .indexProperty W.p,
      .setProperties (.specificVertex [W.u 1]) W.p (.num (.float W.f0))]) Rocks.init
    S.Reach s ∧ S.seesVProp .sorted s (W.u 1) W.p = some (.num (.float W.f1)) ∧
    S.value .sorted (.vertexWithPropertyValue W.p (.num (.float W.f0))) s = .ok (.vertices [⟨W.u 1, W.t⟩]) ∧
    S.value .sorted (.vertexWithPropertyValue W.p (.num (.float W.f1))) s = .ok (.vertices []) := by
  refine ⟨⟨_, rfl, rfl, ?_⟩, ?_, ?_, ?_⟩
  · exact List.forall_mem_cons.2 ⟨trivial, List.forall_mem_cons.2 ⟨trivial, List.forall_mem_cons.2 ⟨⟨.num (.float W.f1), by decide +kernel⟩,
      fun _ h => nomatch h⟩⟩⟩
  · decide +kernel
  · decide +kernel
  · decide +kernel

end IndraDB
