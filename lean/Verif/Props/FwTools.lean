import Verif.Model.FwTools
import Mathlib.Tactic.NormNum
import Mathlib.Data.List.GetD
import Mathlib.Order.Interval.Finset.Nat
import Mathlib.Tactic.IntervalCases

/-!
# C60 to C62: firmware
-/

namespace Verif.Props
open Verif.Py Verif.Model

/-! ## C60: modifying a symbol -/

/-- The symbol is two bytes of the file, next to each other. -/
structure InFile (info : ElfInfo) (bytes : List ℕ) (a off : ℕ) : Prop where
  first : info.loc a = .file off
  second : info.loc (a + 1) = .file (off + 1)
  size : off + 1 < bytes.length

theorem patch_get (bytes : List ℕ) (off x y : ℕ) (h : off + 1 < bytes.length) (i : ℕ) :
    (patch bytes off [x, y])[i]? = if i = off then some x else if i = off + 1 then some y else bytes[i]? := by
  unfold patch
  have h1 : (bytes.take off).length = off := by rw [List.length_take]; omega
  by_cases hi : i < off
  · rw [List.append_assoc, List.getElem?_append_left (by omega), if_neg (by omega), if_neg (by omega), List.getElem?_take_of_lt hi]
  · rw [List.append_assoc, List.getElem?_append_right (by omega), h1]
    rcases Nat.lt_or_ge i (off + 2) with h2 | h2
    · rw [List.getElem?_append_left (by simp; omega)]
      by_cases h3 : i = off
      · subst h3; simp
      · have : i = off + 1 := by omega
        subst this; simp
    · rw [List.getElem?_append_right (by simp; omega), if_neg (by omega), if_neg (by omega), List.getElem?_drop]
      congr 1
      simp
      omega

theorem patch_length (bytes : List ℕ) (off x y : ℕ) (h : off + 1 < bytes.length) : (patch bytes off [x, y]).length = bytes.length := by
  unfold patch
  simp
  omega

theorem read_two {info : ElfInfo} {bytes : List ℕ} {a off x y : ℕ} (h1 : info.loc a = .file off) (h2 : info.loc (a + 1) = .file (off + 1)) (hx : bytes[off]? = some x)
    (hy : bytes[off + 1]? = some y) : elfRead info bytes a 2 = .ok [x, y] := by
  unfold elfRead
  rw [h1]
  simp only [show List.range 2 = [0, 1] from rfl, List.filterMap_cons, List.filterMap_nil, Nat.add_zero, elfByte, h1, h2, hx, hy]

theorem fromBytes_two (little : Bool) (x y : ℕ) : fromBytes little [x, y] = if little then y * 256 + x else x * 256 + y := by
  cases little <;> simp [fromBytes, fromBig]

theorem toBytes_two {little : Bool} {v : ℕ} (hv : v < 2 ^ 16) : ∃ x y, toBytes2 little v = .ok [x, y] ∧ fromBytes little [x, y] = v := by
  unfold toBytes2
  rw [if_neg (by omega)]
  cases little
  · exact ⟨v / 256, v % 256, by simp, by simp [fromBytes_two]; omega⟩
  · exact ⟨v % 256, v / 256, by simp, by simp [fromBytes_two]; omega⟩

/-- **C60, modifying.**  For every image, symbol (two bytes in the file), byte order and value: the new file holds the value under the symbol, everything else in it is as before, its
length is the same, no other file is touched, and the old value is reported. -/
theorem C60_modify (elf : ElfParser) (fs : FileSys) (p : FPath) (symbol : String) (value : ℕ) (overwrite : Bool) (bytes : List ℕ) (info : ElfInfo) (a off : ℕ)
    (hfile : fs p = some bytes) (helf : elf bytes = some info) (hsym : info.symbols symbol = some a) (hin : InFile info bytes a off)
    (hstable : ∀ x y, elf (patch bytes off [x, y]) = some info) (hv : value < 2 ^ 16) :
    ∃ q old fs' bytes', modifySymbol elf fs p symbol value overwrite = .ok (some (q, old), fs') ∧ (overwrite = true → q = p) ∧
      readSymbol elf fs p symbol 2 = .ok (some old) ∧ readSymbol elf fs' q symbol 2 = .ok (some value) ∧
      fs' q = some bytes' ∧ bytes'.length = bytes.length ∧ (∀ i, i ≠ off → i ≠ off + 1 → bytes'[i]? = bytes[i]?) ∧ (∀ r, r ≠ q → fs' r = fs r) := by
  obtain ⟨x0, hx0⟩ : ∃ x, bytes[off]? = some x := ⟨bytes[off]'(by have := hin.size; omega), List.getElem?_eq_getElem _⟩
  obtain ⟨y0, hy0⟩ : ∃ y, bytes[off + 1]? = some y := ⟨bytes[off + 1]'hin.size, List.getElem?_eq_getElem _⟩
  have hread := read_two hin.first hin.second hx0 hy0
  obtain ⟨x, y, hto, hfrom⟩ := toBytes_two (little := info.little) hv
  have hfind : findSymbol elf fs p symbol = some (bytes, info, a) := by
    unfold findSymbol; rw [hfile]; simp only; rw [helf]; simp only; rw [hsym]
  have hw : elfWrite info bytes a [x, y] = .ok (patch bytes off [x, y]) := by unfold elfWrite; rw [hin.first]
  refine ⟨modifiedPath p value overwrite, fromBytes info.little (lastN 2 [x0, y0]), fs.write (modifiedPath p value overwrite) (patch bytes off [x, y]), patch bytes off [x, y], ?_, ?_,
    ?_, ?_, ?_, patch_length bytes off x y hin.size, ?_, ?_⟩
  · unfold modifySymbol
    rw [if_neg (by omega), hfind]
    simp only
    rw [hread]
    simp only
    rw [hto]
    simp only
    rw [hw]
  · rintro rfl; rfl
  · unfold readSymbol
    rw [hfind]
    simp only
    rw [hread]
  · have hfs : fs.write (modifiedPath p value overwrite) (patch bytes off [x, y]) (modifiedPath p value overwrite) = some (patch bytes off [x, y]) := by
      simp [FileSys.write]
    have hfind' : findSymbol elf (fs.write (modifiedPath p value overwrite) (patch bytes off [x, y])) (modifiedPath p value overwrite) symbol =
        some (patch bytes off [x, y], info, a) := by
      unfold findSymbol; rw [hfs]; simp only; rw [hstable]; simp only; rw [hsym]
    unfold readSymbol
    rw [hfind']
    simp only
    rw [read_two hin.first hin.second (x := x) (y := y) (by rw [patch_get _ _ _ _ hin.size, if_pos rfl])
      (by rw [patch_get _ _ _ _ hin.size, if_neg (by omega), if_pos rfl])]
    simp only [lastN, List.length_cons, List.length_nil, Nat.reduceAdd, Nat.sub_self, List.drop_zero]
    rw [hfrom]
  · simp [FileSys.write]
  · intro i h1 h2
    rw [patch_get _ _ _ _ hin.size, if_neg h1, if_neg h2]
  · intro r hr
    simp [FileSys.write, hr]

/-- **C60, modifying twice.**  Modifying a file in place twice leaves the same files as modifying it once with the last value. -/
theorem C60_last (elf : ElfParser) (fs : FileSys) (p : FPath) (symbol : String) (v w : ℕ) (bytes : List ℕ) (info : ElfInfo) (a off : ℕ)
    (hfile : fs p = some bytes) (helf : elf bytes = some info) (hsym : info.symbols symbol = some a) (hin : InFile info bytes a off)
    (hstable : ∀ x y, elf (patch bytes off [x, y]) = some info) (hv : v < 2 ^ 16) (hw : w < 2 ^ 16) :
    ∃ r1 fs1 r2 r3 fs2, modifySymbol elf fs p symbol v true = .ok (r1, fs1) ∧ modifySymbol elf fs1 p symbol w true = .ok (r2, fs2) ∧
      modifySymbol elf fs p symbol w true = .ok (r3, fs2) := by
  obtain ⟨x, y, hto, -⟩ := toBytes_two (little := info.little) hv
  obtain ⟨x', y', hto', -⟩ := toBytes_two (little := info.little) hw
  obtain ⟨x0, hx0⟩ : ∃ x, bytes[off]? = some x := ⟨bytes[off]'(by have := hin.size; omega), List.getElem?_eq_getElem _⟩
  obtain ⟨y0, hy0⟩ : ∃ y, bytes[off + 1]? = some y := ⟨bytes[off + 1]'hin.size, List.getElem?_eq_getElem _⟩
  have hread := read_two hin.first hin.second hx0 hy0
  have shape : ∀ (g : FileSys) (b : List ℕ) (u c d c0 d0 : ℕ), u < 2 ^ 16 → g p = some b → elf b = some info → off + 1 < b.length → toBytes2 info.little u = .ok [c, d] →
      b[off]? = some c0 → b[off + 1]? = some d0 →
      modifySymbol elf g p symbol u true = .ok (some (p, fromBytes info.little (lastN 2 [c0, d0])), g.write p (patch b off [c, d])) := by
    intro g b u c d c0 d0 hu hg hb hlen ht hc hd
    have hf : findSymbol elf g p symbol = some (b, info, a) := by
      unfold findSymbol; rw [hg]; simp only; rw [hb]; simp only; rw [hsym]
    have hww : elfWrite info b a [c, d] = .ok (patch b off [c, d]) := by unfold elfWrite; rw [hin.first]
    unfold modifySymbol
    rw [if_neg (by omega), hf]
    simp only
    rw [read_two hin.first hin.second hc hd]
    simp only
    rw [ht]
    simp only
    rw [hww]
    rfl
  have s1 := shape fs bytes v x y x0 y0 hv hfile helf hin.size hto hx0 hy0
  have s3 := shape fs bytes w x' y' x0 y0 hw hfile helf hin.size hto' hx0 hy0
  have s2 := shape (fs.write p (patch bytes off [x, y])) (patch bytes off [x, y]) w x' y' x y hw (by simp [FileSys.write]) (hstable x y)
    (by rw [patch_length _ _ _ _ hin.size]; exact hin.size) hto' (by rw [patch_get _ _ _ _ hin.size, if_pos rfl])
    (by rw [patch_get _ _ _ _ hin.size, if_neg (by omega), if_pos rfl])
  refine ⟨_, _, _, some (p, fromBytes info.little (lastN 2 [x0, y0])), _, s1, s2, ?_⟩
  rw [s3]
  congr 2
  funext r
  simp only [FileSys.write]
  split
  · congr 1
    apply List.ext_getElem?
    intro i
    rw [patch_get _ _ _ _ hin.size, patch_get _ _ _ _ (by rw [patch_length _ _ _ _ hin.size]; exact hin.size), patch_get _ _ _ _ hin.size]
    split
    · rfl
    · split <;> rfl
  · rfl

/-- **C60, nothing to modify.**  Without file, in a file that is no ELF, without the symbol, or with a symbol that is not part of the file: no file is touched, no path returned.
Values that do not fit are refused. -/
theorem C60_absent (elf : ElfParser) (fs : FileSys) (p : FPath) (symbol : String) (value : ℕ) (overwrite : Bool) :
    (2 ^ 16 ≤ value → modifySymbol elf fs p symbol value overwrite = .error .valueError) ∧
    (value < 2 ^ 16 → (fs p = none ∨ (∃ b, fs p = some b ∧ elf b = none) ∨ (∃ b i, fs p = some b ∧ elf b = some i ∧ i.symbols symbol = none) ∨
      (∃ b i a, fs p = some b ∧ elf b = some i ∧ i.symbols symbol = some a ∧ i.loc a = .bss)) → modifySymbol elf fs p symbol value overwrite = .ok (none, fs)) := by
  constructor
  · intro h
    unfold modifySymbol
    rw [if_pos h]
  · intro hv h
    unfold modifySymbol findSymbol
    rw [if_neg (by omega)]
    rcases h with h | ⟨b, h1, h2⟩ | ⟨b, i, h1, h2, h3⟩ | ⟨b, i, a, h1, h2, h3, h4⟩
    · rw [h]
    · rw [h1]; simp only; rw [h2]
    · rw [h1]; simp only; rw [h2]; simp only; rw [h3]
    · rw [h1]; simp only; rw [h2]; simp only; rw [h3]; simp only
      unfold elfRead elfWrite
      rw [h4]
      simp only
      obtain ⟨x, y, hto, -⟩ := toBytes_two (little := i.little) hv
      rw [hto]

/-- **C60, names.**  Files made for different values have different names, none is the original one. -/
theorem C60_names (p : FPath) (v w : ℕ) : (modifiedPath p v false = modifiedPath p w false → v = w) ∧ modifiedPath p v false ≠ p := by
  constructor
  · intro h
    simp only [modifiedPath, Bool.false_eq_true, if_false, FPath.mk.injEq, true_and, and_true] at h
    have h2 : toString v = toString w := by
      have := congrArg String.toList h
      simp only [String.toList_append, List.append_assoc, List.append_cancel_left_eq] at this
      exact String.toList_injective this
    have h3 : Nat.toDigits 10 v = Nat.toDigits 10 w := by
      have : (Nat.repr v).toList = (Nat.repr w).toList := congrArg String.toList h2
      rwa [Nat.toList_repr, Nat.toList_repr] at this
    have h4 := congrArg (fun l => Nat.ofDigitChars 10 l 0) h3
    simpa [Nat.ofDigitChars_toDigits] using h4
  · intro h
    simp only [modifiedPath, Bool.false_eq_true, if_false] at h
    have := congrArg (fun q => q.stem.toList.length) h
    simp only [String.toList_append, List.length_append] at this
    have h1 : "_".toList.length = 1 := rfl
    omega

/-- A file of six bytes with a symbol at offset 2, in both byte orders: 0x0102 = 258 is written. -/
def elf6 (little : Bool) : ElfParser := fun b => if b.length = 6 then some ⟨fun s => if s = "SHEPHERD_NODE_ID" then some 102 else none, fun a => .file (a - 100), little⟩ else none
def fpA : FPath := ⟨"/tmp", "fw", ".elf"⟩
def fs6 : FileSys := fun p => if p = fpA then some [10, 11, 12, 13, 14, 15] else none
/-- Two results in one. -/
def modOutcome (x : Except PyErr (Option (FPath × ℕ) × FileSys)) (p : FPath) : Option (Option (FPath × ℕ)) × Option (List ℕ) :=
  match x with | .ok (r, fs) => (some r, fs p) | .error _ => (none, none)

example : modOutcome (modifySymbol (elf6 true) fs6 fpA "SHEPHERD_NODE_ID" 258 true) fpA = (some (some (fpA, 13 * 256 + 12)), some [10, 11, 2, 1, 14, 15]) ∧
    modOutcome (modifySymbol (elf6 false) fs6 fpA "SHEPHERD_NODE_ID" 258 true) fpA = (some (some (fpA, 12 * 256 + 13)), some [10, 11, 1, 2, 14, 15]) ∧
    modOutcome (modifySymbol (elf6 false) fs6 fpA "SHEPHERD_NODE_ID" 258 false) ⟨"/tmp", "fw_258", ".elf"⟩ =
      (some (some (⟨"/tmp", "fw_258", ".elf"⟩, 12 * 256 + 13)), some [10, 11, 1, 2, 14, 15]) := by decide +kernel

/-- The hypotheses of the theorems are met. -/
example : ∃ info, elf6 true [10, 11, 12, 13, 14, 15] = some info ∧ info.symbols "SHEPHERD_NODE_ID" = some 102 ∧ InFile info [10, 11, 12, 13, 14, 15] 102 2 ∧
    ∀ x y, elf6 true (patch [10, 11, 12, 13, 14, 15] 2 [x, y]) = some info :=
  ⟨_, rfl, rfl, ⟨rfl, rfl, by decide⟩, fun _ _ => rfl⟩

/-! ## C61: embedded firmware -/

theorem b64_char (i : ℕ) (h : i < 64) : b64Val (b64Char i) = some i ∧ b64Char i ≠ 61 ∧ b64Char i < 128 := by
  interval_cases i <;> decide

theorem loop_char (quad left pads i : ℕ) (h : i < 64) (t : List ℕ) :
    b64Loop quad left pads (b64Char i :: t) =
      match quad with
      | 0 => b64Loop 1 i 0 t
      | 1 => (b64Loop 2 (i % 16) 0 t).map ((left * 4 + i / 16) :: ·)
      | 2 => (b64Loop 3 (i % 4) 0 t).map ((left * 16 + i / 4) :: ·)
      | _ => (b64Loop 0 0 0 t).map ((left * 64 + i) :: ·) := by
  obtain ⟨h1, h2, -⟩ := b64_char i h
  rw [b64Loop, if_neg h2, h1]
  rfl

theorem loop_encode : ∀ (n : ℕ) (l : List ℕ), l.length ≤ n → (∀ b ∈ l, b < 256) → b64Loop 0 0 0 (b64Encode l) = .ok l := by
  intro n
  induction n with
  | zero =>
    intro l hl _
    have : l = [] := List.length_eq_zero_iff.mp (by omega)
    subst this
    rfl
  | succ n ih =>
    intro l hl hb
    match l, hl, hb with
    | [], _, _ => rfl
    | [a], _, hb =>
      have ha : a < 256 := hb a (by simp)
      rw [b64Encode, loop_char _ _ _ _ (by omega)]
      simp only
      rw [loop_char _ _ _ _ (by omega)]
      simp only
      simp [b64Loop, Except.map]
      omega
    | [a, b], _, hb =>
      have ha : a < 256 := hb a (by simp)
      have hb' : b < 256 := hb b (by simp)
      rw [b64Encode, loop_char _ _ _ _ (by omega)]
      simp only
      rw [loop_char _ _ _ _ (by omega)]
      simp only
      rw [loop_char _ _ _ _ (by omega)]
      simp only
      simp [b64Loop, Except.map]
      omega
    | a :: b :: c :: t, hl, hb =>
      have ha : a < 256 := hb a (by simp)
      have hb' : b < 256 := hb b (by simp)
      have hc : c < 256 := hb c (by simp)
      rw [b64Encode, loop_char _ _ _ _ (by omega)]
      simp only
      rw [loop_char _ _ _ _ (by omega)]
      simp only
      rw [loop_char _ _ _ _ (by omega)]
      simp only
      rw [loop_char _ _ _ _ (by omega)]
      simp only
      rw [ih t (by simp at hl; omega) (fun x hx => hb x (by simp [hx]))]
      simp only [Except.map]
      congr 2
      · omega
      · congr 1
        · omega
        · congr 1; omega

theorem encode_ascii : ∀ (n : ℕ) (l : List ℕ), l.length ≤ n → (∀ b ∈ l, b < 256) → ∀ c ∈ b64Encode l, c < 128 := by
  intro n
  induction n with
  | zero =>
    intro l hl _
    have : l = [] := List.length_eq_zero_iff.mp (by omega)
    subst this
    simp [b64Encode]
  | succ n ih =>
    intro l hl hb
    match l, hl, hb with
    | [], _, _ => simp [b64Encode]
    | [a], _, hb =>
      have ha : a < 256 := hb a (by simp)
      intro c hc
      simp only [b64Encode, List.mem_cons, List.not_mem_nil, or_false] at hc
      rcases hc with rfl | rfl | rfl | rfl
      · exact (b64_char _ (by omega)).2.2
      · exact (b64_char _ (by omega)).2.2
      · omega
      · omega
    | [a, b], _, hb =>
      have ha : a < 256 := hb a (by simp)
      have hb' : b < 256 := hb b (by simp)
      intro c hc
      simp only [b64Encode, List.mem_cons, List.not_mem_nil, or_false] at hc
      rcases hc with rfl | rfl | rfl | rfl
      · exact (b64_char _ (by omega)).2.2
      · exact (b64_char _ (by omega)).2.2
      · exact (b64_char _ (by omega)).2.2
      · omega
    | a :: b :: d :: t, hl, hb =>
      have ha : a < 256 := hb a (by simp)
      have hb' : b < 256 := hb b (by simp)
      have hd : d < 256 := hb d (by simp)
      intro c hc
      simp only [b64Encode, List.mem_cons] at hc
      rcases hc with rfl | rfl | rfl | rfl | hc
      · exact (b64_char _ (by omega)).2.2
      · exact (b64_char _ (by omega)).2.2
      · exact (b64_char _ (by omega)).2.2
      · exact (b64_char _ (by omega)).2.2
      · exact ih t (by simp at hl; omega) (fun x hx => hb x (by simp [hx])) c hc

/-- **C61, base64.**  Decoding what was encoded gives the same bytes, for every byte string. -/
theorem C61_base64 (l : List ℕ) (h : ∀ b ∈ l, b < 256) : b64Decode (b64Encode l) = .ok l := by
  unfold b64Decode
  rw [if_pos (by rw [List.all_eq_true]; intro c hc; exact decide_eq_true (encode_ascii _ l le_rfl h c hc)), loop_encode _ l le_rfl h]

/-- A compressor that loses nothing and makes bytes. -/
def Lossless (z : Zstd) : Prop := ∀ b, (∀ x ∈ b, x < 256) → z.decompress (z.compress b) = some b ∧ ∀ x ∈ z.compress b, x < 256

/-- The size of embedded text that fits the field. -/
def FitsText (z : Zstd) (b : List ℕ) : Prop := 3 ≤ (b64Encode (z.compress b)).length ∧ (b64Encode (z.compress b)).length ≤ 8000000

/-- **C61, embedding (partial).**  For every file with a known suffix and every lossless compressor, up to 8 million characters of compressed text: the firmware made from the file is accepted; extracting it writes exactly the bytes of the
original to the given path with the suffix of its type, and touches no other file; the stored hash matches the extracted file. -/
theorem C61_embed_partial (z : Zstd) (hash : List ℕ → ℕ) (hz : Lossless z) (fs fs0 : FileSys) (p q : FPath) (b : List ℕ) (ty : FwType) (hb : ∀ x ∈ b, x < 256) (hp : fs p = some b)
    (hty : typeOfSuffix p.suffix = some ty) (hfit : FitsText z b) :
    ∃ f, FwModel.fromFirmware z hash fs p true = .ok f ∧ f.validate z hash = .ok () ∧ f.dataType = ty ∧
      ∃ fs', f.extract z hash fs0 q = .ok (q.withSuffix ty.suffix, fs') ∧ fs' (q.withSuffix ty.suffix) = some b ∧ (∀ r, r ≠ q.withSuffix ty.suffix → fs' r = fs0 r) ∧
        f.compareHash z hash fs' (some (q.withSuffix ty.suffix)) = .ok true ∧ f.compareHash z hash fs' none = .ok true := by
  have hcont : base64Content z (b64Encode (z.compress b)) = .ok b := by
    unfold base64Content
    rw [C61_base64 _ (hz b hb).2]
    simp only
    rw [(hz b hb).1]
  have hkind : ty = .base64Hex ∨ ty = .base64Elf := by
    unfold typeOfSuffix at hty
    split at hty
    · exact Or.inl (Option.some.inj hty).symm
    · split at hty
      · exact Or.inr (Option.some.inj hty).symm
      · cases hty
  have hval : (⟨.text (b64Encode (z.compress b)), ty, some (hash b), false⟩ : FwModel).validate z hash = .ok () := by
    rcases hkind with rfl | rfl <;> simp [FwModel.validate, hcont]
  refine ⟨⟨.text (b64Encode (z.compress b)), ty, some (hash b), false⟩, ?_, hval, rfl, fs0.write (q.withSuffix ty.suffix) b, ?_, ?_, ?_, ?_, ?_⟩
  · unfold FwModel.fromFirmware
    rw [hp]
    simp only
    rw [hty]
    simp only [if_true]
    unfold fileToBase64
    rw [hp]
    simp only
    rw [hval]
    have hn : (FwData.text (b64Encode (z.compress b))).narrow = .text (b64Encode (z.compress b)) := if_pos hfit
    simp only [hn]
  · have hex : extractFirmware z fs0 (.text (b64Encode (z.compress b))) ty q = .ok (q.withSuffix ty.suffix, fs0.write (q.withSuffix ty.suffix) b) := by
      rcases hkind with rfl | rfl <;> simp [extractFirmware, base64ToFile, hcont]
    unfold FwModel.extract
    simp only
    rw [hex]
    simp only
    unfold FwModel.compareHash
    simp [FileSys.write]
  · simp [FileSys.write]
  · intro r hr; simp [FileSys.write, hr]
  · simp [FwModel.compareHash, FileSys.write]
  · simp [FwModel.compareHash, hcont]

theorem encode_length : ∀ (n : ℕ) (l : List ℕ), l.length ≤ n → (b64Encode l).length = 4 * ((l.length + 2) / 3) := by
  intro n
  induction n with
  | zero =>
    intro l hl
    have : l = [] := List.length_eq_zero_iff.mp (by omega)
    rw [this]; simp [b64Encode]
  | succ n ih =>
    intro l hl
    match l with
    | [] => simp [b64Encode]
    | [a] => simp [b64Encode]
    | [a, b] => simp [b64Encode]
    | a :: b :: c :: t =>
      have := ih t (by simp at hl; omega)
      simp only [b64Encode, List.length_cons, this]
      omega

/-- **C61 violated: big files.**  If the compressed text has more than 8 million characters, the firmware is accepted all the same, but it can never be extracted: the text was taken for a path. -/
theorem C61_large_violated (z : Zstd) (hash : List ℕ → ℕ) (hz : Lossless z) (fs : FileSys) (p : FPath) (b : List ℕ) (ty : FwType) (hb : ∀ x ∈ b, x < 256) (hp : fs p = some b)
    (hty : typeOfSuffix p.suffix = some ty) (hbig : 6000000 < (z.compress b).length) :
    ∃ f, FwModel.fromFirmware z hash fs p true = .ok f ∧ ∀ fs0 q, f.extract z hash fs0 q = .error .valueError := by
  have hcont : base64Content z (b64Encode (z.compress b)) = .ok b := by
    unfold base64Content
    rw [C61_base64 _ (hz b hb).2]
    simp only
    rw [(hz b hb).1]
  have hkind : ty = .base64Hex ∨ ty = .base64Elf := by
    unfold typeOfSuffix at hty
    split at hty
    · exact Or.inl (Option.some.inj hty).symm
    · split at hty
      · exact Or.inr (Option.some.inj hty).symm
      · cases hty
  have hval : (⟨.text (b64Encode (z.compress b)), ty, some (hash b), false⟩ : FwModel).validate z hash = .ok () := by
    rcases hkind with rfl | rfl <;> simp [FwModel.validate, hcont]
  have hn : (FwData.text (b64Encode (z.compress b))).narrow = .lost := by
    refine if_neg ?_
    rw [encode_length _ _ le_rfl]
    omega
  refine ⟨⟨.lost, ty, some (hash b), false⟩, ?_, fun fs0 q => ?_⟩
  · unfold FwModel.fromFirmware
    rw [hp]
    simp only
    rw [hty]
    simp only [if_true]
    unfold fileToBase64
    rw [hp]
    simp only
    rw [hval]
    simp only [hn]
  · unfold FwModel.extract
    rcases hkind with rfl | rfl <;> rfl

/-- **C61, referencing.**  Not embedded: extracting copies the file as it is at that time. -/
theorem C61_reference (z : Zstd) (hash : List ℕ → ℕ) (fs : FileSys) (p q : FPath) (b : List ℕ) (ty : FwType) (hp : fs p = some b) (hty : typeOfSuffix p.suffix = some ty) :
    ∃ f, FwModel.fromFirmware z hash fs p false = .ok f ∧ ∀ fs0 b0, fs0 p = some b0 →
      ∃ fs', f.extract z hash fs0 q = .ok (q.withSuffix ty.suffix, fs') ∧ fs' (q.withSuffix ty.suffix) = some b0 ∧ (∀ r, r ≠ q.withSuffix ty.suffix → fs' r = fs0 r) := by
  obtain ⟨ty', h1, h2, h3⟩ : ∃ ty', ty.toPath = some ty' ∧ ty'.suffix = ty.suffix ∧ (ty' = .pathHex ∨ ty' = .pathElf) := by
    unfold typeOfSuffix at hty
    split at hty
    · rw [← Option.some.inj hty]; exact ⟨.pathHex, rfl, rfl, Or.inl rfl⟩
    · split at hty
      · rw [← Option.some.inj hty]; exact ⟨.pathElf, rfl, rfl, Or.inr rfl⟩
      · cases hty
  refine ⟨⟨.path p, ty', some (hash b), true⟩, ?_, ?_⟩
  · unfold FwModel.fromFirmware
    rw [hp]
    simp only
    rw [hty]
    simp only [Bool.false_eq_true, if_false]
    rw [h1]
  · intro fs0 b0 h0
    refine ⟨fs0.write (q.withSuffix ty.suffix) b0, ?_, by simp [FileSys.write], fun r hr => by simp [FileSys.write, hr]⟩
    have hex : extractFirmware z fs0 (.path p) ty' q = .ok (q.withSuffix ty.suffix, fs0.write (q.withSuffix ty.suffix) b0) := by
      rcases h3 with rfl | rfl <;> simp [extractFirmware, h0, ← h2]
    unfold FwModel.extract
    simp only
    rw [hex]
    simp [FwModel.compareHash, FileSys.write]

/-- **C61, modified data.**  Embedded firmware with a hash is accepted exactly if its content has this hash: data that decode to something else than the original are refused, unless
the hash has a collision. -/
theorem C61_hash (z : Zstd) (hash : List ℕ → ℕ) (s b b' : List ℕ) (ty : FwType) (hty : ty = .base64Hex ∨ ty = .base64Elf) (hs : base64Content z s = .ok b') :
    ((⟨.text s, ty, some (hash b), false⟩ : FwModel).validate z hash = .ok () ↔ hash b' = hash b) ∧
    ((⟨.text s, ty, some (hash b), false⟩ : FwModel).validate z hash = .ok () → b' ≠ b → ∃ x y, x ≠ y ∧ hash x = hash y) := by
  have key : (⟨.text s, ty, some (hash b), false⟩ : FwModel).validate z hash = .ok () ↔ hash b' = hash b := by
    rcases hty with rfl | rfl
    · simp only [FwModel.validate, hs]
      by_cases h : hash b' = hash b <;> simp [h]
    · simp only [FwModel.validate, hs]
      by_cases h : hash b' = hash b <;> simp [h]
  exact ⟨key, fun h1 h2 => ⟨b', b, h2, key.mp h1⟩⟩

/-- **C61 violated: referenced firmware.**  A file that was changed after the firmware was made is extracted all the same: the result of the comparison with the hash is not used. -/
theorem C61_reference_violated (z : Zstd) (hash : List ℕ → ℕ) (fs : FileSys) (p q : FPath) (b b0 : List ℕ) (ty : FwType) (hp : fs p = some b)
    (hty : typeOfSuffix p.suffix = some ty) (hne : hash b ≠ hash b0) :
    ∃ f, FwModel.fromFirmware z hash fs p false = .ok f ∧
      ∃ fs', f.extract z hash (fs.write p b0) q = .ok (q.withSuffix ty.suffix, fs') ∧ f.compareHash z hash fs' (some (q.withSuffix ty.suffix)) = .ok false := by
  obtain ⟨f, h1, h2⟩ := C61_reference z hash fs p q b ty hp hty
  obtain ⟨fs', h3, h4, -⟩ := h2 (fs.write p b0) b0 (by simp [FileSys.write])
  refine ⟨f, h1, fs', h3, ?_⟩
  have hf : f.dataHash = some (hash b) := by
    unfold FwModel.fromFirmware at h1
    rw [hp] at h1
    simp only at h1
    rw [hty] at h1
    simp only [Bool.false_eq_true, if_false] at h1
    cases ht : ty.toPath with
    | none => rw [ht] at h1; simp at h1
    | some ty' => rw [ht] at h1; simp only [Except.ok.injEq] at h1; rw [← h1]
  unfold FwModel.compareHash
  rw [hf]
  simp [h4, hne]

/-- **C61 violated: faulty data.**  Text that is base64 but no compressed data raises an exception of the decompressor, which is no ValueError. -/
theorem C61_faulty_violated (z : Zstd) (hash : List ℕ → ℕ) (l : List ℕ) (h : Option ℕ) (hl : ∀ x ∈ l, x < 256) (hz : z.decompress l = none) :
    (⟨.text (b64Encode l), .base64Elf, h, false⟩ : FwModel).validate z hash = .error .zstdError := by
  simp [FwModel.validate, base64Content, C61_base64 l hl, hz]

/-- **C61, types.**  The suffix decides about the type, and with it about the suffix of the extracted file: files with the suffixes of hex files are extracted as hex files, files with the
suffixes of programs as ELF files.  Other suffixes are refused, with a KeyError. -/
theorem C61_type (z : Zstd) (hash : List ℕ → ℕ) (fs : FileSys) (p : FPath) (b : List ℕ) (hp : fs p = some b) (embed : Bool) :
    (p.suffix ∈ [".hex", ".ihex", ".ihx"] → ∀ f, FwModel.fromFirmware z hash fs p embed = .ok f → f.dataType.suffix = ".hex")
    ∧ (p.suffix ∈ [".elf", ".bin", ".o", ".out", ".so"] → ∀ f, FwModel.fromFirmware z hash fs p embed = .ok f → f.dataType.suffix = ".elf")
    ∧ (p.suffix ∉ [".hex", ".ihex", ".ihx", ".elf", ".bin", ".o", ".out", ".so"] → FwModel.fromFirmware z hash fs p embed = .error .keyError) := by
  have key : ∀ ty f, typeOfSuffix p.suffix = some ty → FwModel.fromFirmware z hash fs p embed = .ok f → f.dataType = ty ∨ ty.toPath = some f.dataType := by
    intro ty f ht hf
    unfold FwModel.fromFirmware at hf
    rw [hp] at hf
    simp only at hf
    rw [ht] at hf
    cases embed with
    | true =>
      simp only [if_true] at hf
      cases hb : fileToBase64 z fs p with
      | error e => rw [hb] at hf; simp at hf
      | ok s =>
        rw [hb] at hf
        simp only at hf
        cases hv : (⟨.text s, ty, some (hash b), false⟩ : FwModel).validate z hash with
        | error e => rw [hv] at hf; simp at hf
        | ok u => rw [hv] at hf; left; cases hf; rfl
    | false =>
      simp only [Bool.false_eq_true, if_false] at hf
      cases hb : ty.toPath with
      | none => rw [hb] at hf; simp at hf
      | some ty' => rw [hb] at hf; right; cases hf; rfl
  refine ⟨fun hs f hf => ?_, fun hs f hf => ?_, fun hs => ?_⟩
  · have ht : typeOfSuffix p.suffix = some .base64Hex := by
      simp only [List.mem_cons, List.not_mem_nil, or_false] at hs
      unfold typeOfSuffix
      rw [if_pos hs]
    rcases key _ f ht hf with e | e
    · rw [e]; rfl
    · rw [← Option.some.inj e]; rfl
  · have ht : typeOfSuffix p.suffix = some .base64Elf := by
      simp only [List.mem_cons, List.not_mem_nil, or_false] at hs
      unfold typeOfSuffix
      rw [if_neg (by rcases hs with e | e | e | e | e <;> rw [e] <;> decide), if_pos hs]
    rcases key _ f ht hf with e | e
    · rw [e]; rfl
    · rw [← Option.some.inj e]; rfl
  · have ht : typeOfSuffix p.suffix = none := by
      simp only [List.mem_cons, List.not_mem_nil, or_false, not_or] at hs
      unfold typeOfSuffix
      rw [if_neg (by tauto), if_neg (by tauto)]
    unfold FwModel.fromFirmware
    rw [hp]
    simp only
    rw [ht]

/-- Ten bytes; "shepherd" in base64. -/
example : b64Encode [115, 104, 101, 112, 104, 101, 114, 100] = "c2hlcGhlcmQ=".toList.map Char.toNat ∧ b64Decode ("c2hl\ncGhl cmQ=".toList.map Char.toNat) =
    .ok [115, 104, 101, 112, 104, 101, 114, 100] ∧ b64Decode ("c2hlc".toList.map Char.toNat) = .error .valueError ∧ typeOfSuffix ".elf" = some .base64Elf := by decide +kernel

/-- A lossless compressor. -/
example : Lossless ⟨fun b => 40 :: b, fun b => match b with | 40 :: t => some t | _ => none⟩ := by
  intro b hb
  refine ⟨rfl, ?_⟩
  intro x hx
  rcases List.mem_cons.mp hx with e | h
  · omega
  · exact hb x h

/-- Small and big files for it. -/
example : FitsText ⟨fun b => 40 :: b, fun b => match b with | 40 :: t => some t | _ => none⟩ [1, 2, 3] ∧ ∀ n, 6000000 ≤ n →
    6000000 < ((⟨fun b => 40 :: b, fun b => match b with | 40 :: t => some t | _ => none⟩ : Zstd).compress (List.replicate n 7)).length ∧ ∀ x ∈ List.replicate n 7, x < 256 := by
  refine ⟨by unfold FitsText; decide, fun n hn => ⟨?_, ?_⟩⟩
  · simp only [List.length_cons, List.length_replicate]
    omega
  · intro x hx
    rw [(List.mem_replicate.mp hx).2]
    omega

/-! ## C62: hex files for MSP430 -/

/-- **C62 violated.**  The check of the reset vector never refuses a file: two files that differ in the vector only (with the same need of memory) get the same answer. -/
theorem C62_vector_violated (hex : HexParser) (memSize : List (ℕ × ℕ) → ℕ) (content : List ℕ) (ih : List (ℕ × ℕ)) (h : hex content = some ih) (hmin : hexMin ih = some 0x4000)
    (lo hi : ℕ) (hlo : hexByte ih 0xFFFE = some lo) (hhi : hexByte ih 0xFFFF = some hi) : isHexMsp430 hex memSize content = .ok (decide (memSize ih ≤ 270000)) := by
  have hany : ih.any (fun e => e.1 = 0xFFFE) = true := by
    unfold hexByte at hlo
    rw [Option.map_eq_some_iff] at hlo
    obtain ⟨e, he, -⟩ := hlo
    rw [List.any_eq_true]
    exact ⟨e, List.mem_of_find?_eq_some he, by simpa using List.find?_some he⟩
  unfold isHexMsp430
  rw [h]
  simp only
  rw [if_neg (not_not.mpr hmin), if_neg (not_not.mpr hany), hlo, hhi]
  simp only
  rw [if_neg (by omega)]

/-- **C62, what is checked (partial).**  A file is only taken for one of MSP430 if it is a hex file, its first address is 0x4000, it has both bytes of the reset vector and is not too
big. -/
theorem C62_checks_partial (hex : HexParser) (memSize : List (ℕ × ℕ) → ℕ) (content : List ℕ) (h : isHexMsp430 hex memSize content = .ok true) :
    ∃ ih, hex content = some ih ∧ hexMin ih = some 0x4000 ∧ (∃ lo, hexByte ih 0xFFFE = some lo) ∧ (∃ hi, hexByte ih 0xFFFF = some hi) ∧ memSize ih ≤ 270000 := by
  unfold isHexMsp430 at h
  cases hc : hex content with
  | none => rw [hc] at h; simp at h
  | some ih =>
    rw [hc] at h
    simp only at h
    by_cases h1 : hexMin ih ≠ some 0x4000
    · rw [if_pos h1] at h; simp at h
    · rw [if_neg h1] at h
      by_cases h2 : ¬(ih.any (fun e => e.1 = 0xFFFE)) = true
      · rw [if_pos h2] at h; simp at h
      · rw [if_neg h2] at h
        cases hlo : hexByte ih 0xFFFE with
        | none => rw [hlo] at h; simp at h
        | some lo =>
          cases hhi : hexByte ih 0xFFFF with
          | none => rw [hlo, hhi] at h; simp at h
          | some hi =>
            rw [hlo, hhi] at h
            simp only at h
            rw [if_neg (by omega)] at h
            simp only [Except.ok.injEq, decide_eq_true_eq] at h
            exact ⟨ih, rfl, not_not.mp h1, ⟨lo, hlo⟩, ⟨hi, hhi⟩, h⟩

/-- **C62 violated: half a vector.**  If the second byte of the vector is missing, an exception is raised that is none of the exceptions the function is meant to turn into "no". -/
theorem C62_half_violated (hex : HexParser) (memSize : List (ℕ × ℕ) → ℕ) (content : List ℕ) (ih : List (ℕ × ℕ)) (h : hex content = some ih) (hmin : hexMin ih = some 0x4000)
    (hlo : ih.any (fun e => e.1 = 0xFFFE) = true) (hhi : hexByte ih 0xFFFF = none) :
    isHexMsp430 hex memSize content = .error .hexError ∧ hexArch hex memSize content = .error .hexError := by
  have e : isHexMsp430 hex memSize content = .error .hexError := by
    unfold isHexMsp430
    rw [h]
    simp only
    rw [if_neg (not_not.mpr hmin), if_neg (not_not.mpr hlo), hhi]
    cases hexByte ih 0xFFFE <;> rfl
  exact ⟨e, by unfold hexArch; rw [e]⟩

/-- **C62, everything else is nRF52.**  Every hex file that is not taken for one of MSP430 is taken for one of nRF52, as an object always needs memory. -/
theorem C62_nrf52 (hex : HexParser) (memSize : List (ℕ × ℕ) → ℕ) (hmem : ∀ ih, 0 < memSize ih) (content : List ℕ) (h : isHexMsp430 hex memSize content = .ok false) :
    hexArch hex memSize content = if (hex content).isSome then .ok .nrf52 else .error .valueError := by
  unfold hexArch isHexNrf52
  rw [h]
  cases hc : hex content with
  | none => simp
  | some ih => simp [hmem ih]

/-- **C62, the nRF52 check.**  The only requirement is that the text is a hex file and that the object made of it needs memory. -/
theorem C62_nrf52_check (hex : HexParser) (memSize : List (ℕ × ℕ) → ℕ) (content : List ℕ) :
    isHexNrf52 hex memSize content = true ↔ ∃ ih, hex content = some ih ∧ memSize ih ≠ 0 := by
  unfold isHexNrf52
  cases hc : hex content with
  | none => simp
  | some ih => simp [Nat.pos_iff_ne_zero]

/-- A program from 0x4000 to 0x4001 with the reset vector 0x1234, which is outside of the program memory. -/
example : isHexMsp430 (fun _ => some [(0x4000, 1), (0x4001, 2), (0xFFFE, 0x34), (0xFFFF, 0x12)]) (fun _ => 3000) [] = .ok true ∧
    hexArch (fun _ => some [(0x4000, 1), (0xFFFE, 0x34)]) (fun _ => 3000) [] = .error .hexError ∧ hexArch (fun _ => some [(0, 1)]) (fun _ => 3000) [] = .ok .nrf52 := by decide +kernel

end Verif.Props
