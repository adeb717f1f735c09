import Verif.Spec.Cli
/-
What it means for a string to be the text of an id.
-/
namespace IndraDB

/-- The character is the hexadecimal digit `n`. -/
def HexChar (c : Char) (n : Nat) : Prop :=
  "0123456789abcdef".toList[n]? = some c ∨ "0123456789ABCDEF".toList[n]? = some c

/-- Two hexadecimal digits for each byte. -/
inductive HexBytes : List Char → Bytes → Prop
  | nil : HexBytes [] []
  | cons {c d hi lo x l b} : HexChar c hi → HexChar d lo → x.toNat = 16 * hi + lo → HexBytes l b →
      HexBytes (c :: d :: l) (x :: b)

/-- The string is a text of the id: 32 hexadecimal digits; or the same with hyphens after 8, 12, 16 and 20 digits, which may
stand in braces or after `urn:uuid:`. -/
def Spells (s : String) (u : Uuid) : Prop :=
  ∃ a b c d e : List Char, a.length = 8 ∧ b.length = 4 ∧ c.length = 4 ∧ d.length = 4 ∧ e.length = 12 ∧
    HexBytes (a ++ b ++ c ++ d ++ e) u.bytes ∧
    let hyphens := a ++ '-' :: b ++ '-' :: c ++ '-' :: d ++ '-' :: e
    (s.toList = a ++ b ++ c ++ d ++ e ∨ s.toList = hyphens ∨ s.toList = '{' :: hyphens ++ ['}'] ∨
      s.toList = "urn:uuid:".toList ++ hyphens)

/-- The usual text of an id: lower case, with hyphens. -/
def Canonical (s : String) (u : Uuid) : Prop :=
  Spells s u ∧ s.length = 36 ∧ ∀ c ∈ s.toList, c = '-' ∨ c ∈ "0123456789abcdef".toList

variable (S : Store) (letter : Char → Bool) (J : JsonText) (parseUuid : String → Option Uuid)

/-- C95 for runs of the client: after any history, a vertex the client reports as created is found and printed by
`get vertex` for every text of its id, an edge reported as created by `get edge` for every text of its two ids; any other
text of an id is refused before anything is sent. -/
def Store.TextsDenote : Prop :=
  ∀ hist, S.OkHist hist → (∀ p ∈ hist, p.2.All (·.Valid letter) J.Faithful) → ∀ env env' generated generated',
  let s := S.run hist S.init
  (∀ t id v, (S.cli letter J parseUuid env generated (.setVertex t id) s).2 = .ok (.vertex v) →
    (∀ id', id = some id' → Spells id' v.id) ∧
    ∀ x, Spells x v.id →
      (S.cli letter J parseUuid env' generated' (.getVertex x) (S.cli letter J parseUuid env generated (.setVertex t id) s).1).2 =
        .ok (.vertices (some [v]))) ∧
  (∀ o t i e, (S.cli letter J parseUuid env generated (.setEdge o t i) s).2 = .ok (.edge e) →
    Spells o e.outboundId ∧ Spells i e.inboundId ∧
    ∀ x y, Spells x e.outboundId → Spells y e.inboundId →
      (S.cli letter J parseUuid env' generated' (.getEdge x t y) (S.cli letter J parseUuid env generated (.setEdge o t i) s).1).2 =
        .ok (.edges (some [e]))) ∧
  (∀ x, (¬ ∃ u, Spells x u) →
    S.cli letter J parseUuid env generated (.getVertex x) s = (s, .error .uuid) ∧
    S.cli letter J parseUuid env generated (.deleteVertex x) s = (s, .error .uuid) ∧
    ∀ n v, S.cli letter J parseUuid env generated (.setVertexProperty x n v) s = (s, .error .uuid))

end IndraDB
