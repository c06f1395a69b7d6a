import Verif.Model.Coo

/-!
# Reading and writing files (include/parser.hpp)

A text file is a list of characters and a binary file a list of bytes; a reader gets `none` if the file cannot be opened, and
a writer is told whether its file can be.  Extraction with `>>` skips white space, then hands the rest to the conversion for
the type (`Fmt.get`).  The end-of-file bit is not kept: it is set only when nothing is left, and then the next extraction fails
anyway.  `int` is converted exactly as `std::num_get` does in the classic locale, without a range.  A loop
`while (file >> a >> b)` is split: all values are read first and then processed in order, as processing does not touch the
stream.  A variable without initialiser is an `Option`, `none` until assigned; using `none` is `undefinedBehaviour`.
-/

namespace Linalg
open Cpp

namespace Io

/-- Text. -/
abbrev Text := List Char

/-- `std::isspace` in the classic locale. -/
def isSpace (c : Char) : Bool := c == ' ' || c == '\t' || c == '\n' || c == '\x0b' || c == '\x0c' || c == '\r'

/-- An input stream: the characters not read yet, and the fail bit. -/
structure IStream where
  rest : Text
  failed : Bool
  deriving DecidableEq, Repr

/-- How values of a type are printed by `<<` and converted by `>>`.  `get` is given text that does not start with a space; it
returns the value, or `none` if the conversion fails, and what it leaves. -/
structure Fmt (α : Type) where
  put : α → Text
  get : Text → Option α × Text

variable {α β : Type}

/-- `stream >> x` (`x` before and after; since C++11 a failed conversion stores 0, and a stream that has failed or has nothing
left leaves `x` alone). -/
def extract [Zero α] (F : Fmt α) (s : IStream) (x : Option α) : Option α × IStream :=
  if s.failed then (x, s)
  else
    match s.rest.dropWhile isSpace with
    | [] => (x, ⟨[], true⟩)
    | t =>
      match F.get t with
      | (some v, r) => (some v, ⟨r, false⟩)
      | (none, r) => (some 0, ⟨r, true⟩)

/-- All results of `step`, until it fails.  A step that succeeds consumes characters, so `fuel` steps suffice if `fuel` exceeds
the number of characters. -/
def readLoop (step : IStream → Option (β × IStream)) : Nat → IStream → List β
  | 0, _ => []
  | fuel + 1, s =>
    match step s with
    | none => []
    | some (x, s') => x :: readLoop step fuel s'

/-- `while (step) ...`. -/
def readAll (step : IStream → Option (β × IStream)) (s : IStream) : List β := readLoop step (s.rest.length + 1) s

/-- `stream >> a` as a loop condition. -/
def step1 [Zero α] (F : Fmt α) (s : IStream) : Option (α × IStream) :=
  let r := extract F s none
  if r.2.failed then none else r.1.map (fun a => (a, r.2))

/-- `stream >> a >> b` as a loop condition: the second extraction does nothing if the first failed. -/
def step2 [Zero α] [Zero β] (F : Fmt α) (G : Fmt β) (s : IStream) : Option ((α × β) × IStream) :=
  match step1 F s with
  | none => none
  | some (a, s) =>
    match step1 G s with
    | none => none
    | some (b, s) => some ((a, b), s)

/-- `file >> i >> j >> val` as a loop condition. -/
def step3 [Zero α] (F : Fmt Int) (G : Fmt α) (s : IStream) : Option ((Int × Int × α) × IStream) :=
  match step2 F F s with
  | none => none
  | some ((i, j), s) =>
    match step1 G s with
    | none => none
    | some (v, s) => some ((i, j, v), s)

/-! ## Integers -/

/-- A decimal digit. -/
def digitChar (d : Nat) : Char := Char.ofNat (48 + d)

/-- Is a decimal digit. -/
def isDigit (c : Char) : Bool := 48 ≤ c.toNat && c.toNat ≤ 57

/-- The decimal digits of `n` (`fuel` exceeds their number). -/
def showNatAux : Nat → Nat → Text
  | 0, _ => []
  | fuel + 1, n => if n < 10 then [digitChar n] else showNatAux fuel (n / 10) ++ [digitChar (n % 10)]

/-- The decimal digits of `n`. -/
def showNat (n : Nat) : Text := showNatAux (n + 1) n

/-- `file << i` for an `int`. -/
def showInt (i : Int) : Text := if i < 0 then '-' :: showNat i.natAbs else showNat i.natAbs

/-- The value of a string of digits. -/
def digitsVal (ds : Text) : Nat := ds.foldl (fun n c => 10 * n + (c.toNat - 48)) 0

/-- Digits after the sign. -/
def scanDigits (neg : Bool) (t : Text) : Option Int × Text :=
  if t.takeWhile isDigit = [] then (none, t.dropWhile isDigit)
  else (some (if neg then -(digitsVal (t.takeWhile isDigit) : Int) else digitsVal (t.takeWhile isDigit)), t.dropWhile isDigit)

/-- `std::num_get` for `int`: an optional sign and digits. -/
def scanInt : Text → Option Int × Text
  | [] => (none, [])
  | c :: t => if c = '-' then scanDigits true t else if c = '+' then scanDigits false t else scanDigits false (c :: t)

/-- `int`. -/
def intFmt : Fmt Int := ⟨showInt, scanInt⟩

/-! ## Opening -/

/-- The stream, or the exception of the readers (e.g. include/parser.hpp:23-28). -/
def openIn (file : Option Text) : Res IStream :=
  match file with
  | none => .error .threw
  | some t => .ok ⟨t, false⟩

/-- The exception of the writers (e.g. include/parser.hpp:49-54). -/
def openOut (canOpen : Bool) : Res Unit := if canOpen then .ok () else .error .threw

/-! ## Vectors as text -/

/-- `ReadText(file_name)` (include/parser.hpp:21-41). -/
def readText [Zero α] (F : Fmt α) (file : Option Text) : Res (List α) := do
  let s ← openIn file
  .ok (readAll (step1 F) s)

/-- `WriteText(vect, file_name)` (include/parser.hpp:47-63). -/
def writeText (F : Fmt α) (vect : List α) (canOpen : Bool) : Res Text := do
  openOut canOpen
  .ok (vect.flatMap (fun v => F.put v ++ ['\n']))

/-! ## Lists of entries -/

/-- The loop of the writers over the stored entries: `line i col k` is printed for every stored position that is selected. -/
def writeEntries (A : Csr α) (symmetric : Bool) (line : Int → Int → Int → Res Text) : Res Text :=
  forUp 0 A.rows [] (fun i out =>
    A.forRow i out (fun j out => do
      let col ← rd A.indices j
      if symmetric = false ∨ col ≥ i then do
        let l ← line i col j
        .ok (out ++ l)
      else .ok out))

/-- `WriteAdjList(mat, file_name, symmetric)` (include/parser.hpp:280-309). -/
def writeAdjList (A : Csr α) (symmetric canOpen : Bool) : Res Text := do
  openOut canOpen
  writeEntries A symmetric (fun i col _ => .ok (showInt i ++ [' '] ++ showInt col ++ ['\n']))

/-- `WriteCooList(mat, file_name, symmetric)` (include/parser.hpp:361-391). -/
def writeCooList (F : Fmt α) (A : Csr α) (symmetric canOpen : Bool) : Res Text := do
  openOut canOpen
  writeEntries A symmetric (fun i col j => do
    let d ← rd A.data j
    .ok (showInt i ++ [' '] ++ showInt col ++ [' '] ++ F.put d ++ ['\n']))

/-- The body of the loop of `ReadAdjList`, `ReadCooList` and, with `base` 1, `ReadMTX` and `ReadMTXList`. -/
def addEntry (base : Int) (symmetric : Bool) (C : Coo α) (e : Int × Int × α) : Res (Coo α) := do
  let C ← C.add (e.1 - base) (e.2.1 - base) e.2.2
  if symmetric ∧ e.1 ≠ e.2.1 then C.add (e.2.1 - base) (e.1 - base) e.2.2 else .ok C

/-- `ReadAdjList(file_name, symmetric)` (include/parser.hpp:202-231). -/
def readAdjList [Zero α] [Add α] [One α] (file : Option Text) (symmetric : Bool) : Res (Csr α) := do
  let s ← openIn file
  let C ← (readAll (step2 intFmt intFmt) s).foldlM (fun C e => addEntry 0 symmetric C (e.1, e.2, 1)) Coo.new
  C.toSparse

/-- The body of the loop of `ReadGraphList` (include/parser.hpp:258-264). -/
def addEdge [One α] [Neg α] (C : Coo α) (e : Int × Int) : Res (Coo α) :=
  if e.1 < e.2 then do
    let C ← C.add e.2 e.1 (-1)
    let C ← C.add e.1 e.2 (-1)
    let C ← C.add e.1 e.1 1
    C.add e.2 e.2 1
  else .ok C

/-- `ReadGraphList(file_name)` (include/parser.hpp:241-270). -/
def readGraphList [Zero α] [Add α] [One α] [Neg α] (file : Option Text) : Res (Csr α) := do
  let s ← openIn file
  let C ← (readAll (step2 intFmt intFmt) s).foldlM addEdge Coo.new
  C.toSparse

/-- `ReadCooList(file_name, symmetric)` (include/parser.hpp:322-351). -/
def readCooList [Zero α] [Add α] (F : Fmt α) (file : Option Text) (symmetric : Bool) : Res (Csr α) := do
  let s ← openIn file
  let C ← (readAll (step3 intFmt F) s).foldlM (fun C e => addEntry 0 symmetric C e) Coo.new
  C.toSparse

/-! ## Lines -/

/-- `std::getline`: the next line without its end, or failure if nothing is left. -/
def getLine (s : IStream) : Option (Text × IStream) :=
  if s.failed ∨ s.rest = [] then none
  else some (s.rest.takeWhile (fun c => c != '\n'), ⟨(s.rest.dropWhile (fun c => c != '\n')).drop 1, false⟩)

/-! ## Tables -/

/-- `ReadTable(file_name)` (include/parser.hpp:402-436). -/
def readTable [One α] (file : Option Text) : Res (Csr α) := do
  let s ← openIn file
  let rows := (readAll getLine s).map (fun line => readAll (step1 intFmt) ⟨line, false⟩)
  let indices := rows.flatten
  let indptr := rows.foldl (fun p r => p ++ [p.getLastD 0 + (r.length : Int)]) [0]
  match indices.max? with
  | none => .error .undefinedBehaviour
  | some m => Csr.ofArrays indptr indices (List.replicate indices.length 1) ((indptr.length : Int) - 1) (m + 1)

/-- `WriteTable(mat, file_name)` (include/parser.hpp:444-471). -/
def writeTable (A : Csr α) (canOpen : Bool) : Res Text := do
  openOut canOpen
  forUp 0 A.rows [] (fun i out => do
    let out ← A.forRow i out (fun j out => do
      let hi ← rd A.indptr (i + 1)
      let c ← rd A.indices j
      .ok (out ++ showInt c ++ (if j + 1 = hi then [] else [' '])))
    .ok (out ++ ['\n']))

/-! ## CSR as text -/

/-- `for (i = 0; i < n; ++i) file >> v[i]` into a new vector of `n` zeros. -/
def readInto [Zero α] (F : Fmt α) : Nat → IStream → List α × IStream
  | 0, s => ([], s)
  | n + 1, s =>
    let r := extract F s (some 0)
    let t := readInto F n r.2
    (r.1.getD 0 :: t.1, t.2)

/-- The value of a variable that may not be initialised. -/
def useVar (x : Option α) : Res α :=
  match x with
  | none => .error .undefinedBehaviour
  | some v => .ok v

/-- `ReadCSR(file_name)` (include/parser.hpp:479-520).  A size with a minus sign, which `>>` reads modulo `2^64`, throws here. -/
def readCsr [Zero α] (F : Fmt α) (file : Option Text) : Res (Csr α) := do
  let s ← openIn file
  let r := extract intFmt s none
  let c := extract intFmt r.2 none
  let rows ← useVar r.1
  let cols ← useVar c.1
  if rows < 0 ∨ cols < 0 then .error .threw
  else
    let p := readInto intFmt (rows.toNat + 1) c.2
    let nnz ← rd p.1 ((p.1.length : Int) - 1)
    if nnz < 0 then .error .threw
    else
      let ix := readInto intFmt nnz.toNat p.2
      let dt := readInto F nnz.toNat ix.2
      Csr.ofArrays p.1 ix.1 dt.1 rows cols

/-- `WriteCSR(mat, file_name)` (include/parser.hpp:528-565). -/
def writeCsr (F : Fmt α) (A : Csr α) (canOpen : Bool) : Res Text := do
  openOut canOpen
  .ok (showInt A.rows ++ ['\n'] ++ (showInt A.cols ++ ['\n']) ++ A.indptr.flatMap (fun i => showInt i ++ ['\n'])
    ++ A.indices.flatMap (fun i => showInt i ++ ['\n']) ++ A.data.flatMap (fun d => F.put d ++ ['\n']))

/-! ## Matrix Market -/

/-- `line.find(p) != npos`. -/
def hasSub (p : Text) : Text → Bool
  | [] => p.isPrefixOf []
  | c :: t => p.isPrefixOf (c :: t) || hasSub p t

/-- The word that marks a symmetric file. -/
def symWord : Text := "symmetric".toList

/-- The loop over the comment lines (include/parser.hpp:587-593): the flag, the first line that is not a comment, the stream
after it.  If the file ends first the line is empty. -/
def mtxHeader : Nat → Bool → IStream → Bool × Text × IStream
  | 0, sym, s => (sym, [], s)
  | fuel + 1, sym, s =>
    match getLine s with
    | none => (sym, [], ⟨[], true⟩)
    | some (line, s') =>
      if line.head? = some '%' then mtxHeader fuel (sym || hasSub symWord line) s' else (sym, line, s')

/-- `istringstream(line) >> rows >> cols >> nnz` and `CooMatrix<T> coo(rows, cols); coo.Reserve(nnz)`
(include/parser.hpp:595-603, 653-661); `Reserve` asserts that the number is not negative (include/coomatrix.hpp:317-323). -/
def mtxSize (line : Text) : Res (Coo α) := do
  let r := extract intFmt ⟨line, false⟩ none
  let c := extract intFmt r.2 none
  let z := extract intFmt c.2 none
  let rows ← useVar r.1
  let cols ← useVar c.1
  let C ← Coo.ofSize rows cols
  let nnz ← useVar z.1
  cassert (nnz ≥ 0)
  .ok C

/-- `ReadMTX(file_name)` (include/parser.hpp:577-623). -/
def readMtx [Zero α] [Add α] (F : Fmt α) (file : Option Text) : Res (Csr α) := do
  let s ← openIn file
  let h := mtxHeader (s.rest.length + 1) false s
  let C ← mtxSize h.2.1
  let C ← (readAll (step3 intFmt F) h.2.2).foldlM (fun C e => addEntry 1 h.1 C e) C
  C.toSparse

/-- `ReadMTXList(file_name)` (include/parser.hpp:635-681). -/
def readMtxList [Zero α] [Add α] [One α] (file : Option Text) : Res (Csr α) := do
  let s ← openIn file
  let h := mtxHeader (s.rest.length + 1) false s
  let C ← mtxSize h.2.1
  let C ← (readAll (step2 intFmt intFmt) h.2.2).foldlM (fun C e => addEntry 1 h.1 C (e.1, e.2, 1)) C
  C.toSparse

/-- The first line that `WriteMTX` prints (include/parser.hpp:711). -/
def mtxTitle : Text := "%MatrixMarket matrix coordinate real general\n".toList

/-- `WriteMTX(mat, file_name)` (include/parser.hpp:694-727). -/
def writeMtx (F : Fmt α) (A : Csr α) (canOpen : Bool) : Res Text := do
  openOut canOpen
  let body ← writeEntries A false (fun i col j => do
    let d ← rd A.data j
    .ok (showInt (i + 1) ++ [' '] ++ showInt (col + 1) ++ [' '] ++ F.put d ++ ['\n']))
  .ok (mtxTitle ++ (showInt A.rows ++ [' '] ++ showInt A.cols ++ [' '] ++ showInt A.nnz ++ ['\n']) ++ body)

/-! ## Binary files -/

/-- A byte. -/
abbrev Byte := Fin 256

/-- An open binary file. -/
structure BStream where
  rest : List Byte
  failed : Bool
  deriving DecidableEq, Repr

/-- `file.read(p, n)` where `p` points to the bytes `mem`: overwrites as many as there are, and fails if there are fewer than
`n` (`n` is at most the number of bytes of `mem`). -/
def readBytes (n : Nat) (mem : List Byte) (s : BStream) : List Byte × BStream :=
  if s.failed then (mem, s)
  else (s.rest.take n ++ mem.drop (s.rest.take n).length, ⟨s.rest.drop n, decide (s.rest.length < n)⟩)

/-- `k` bytes of a number, least significant first. -/
def leBytes : Nat → Nat → List Byte
  | 0, _ => []
  | k + 1, n => ⟨n % 256, Nat.mod_lt _ (by decide)⟩ :: leBytes k (n / 256)

/-- The number of a list of bytes, least significant first. -/
def leVal : List Byte → Nat
  | [] => 0
  | b :: bs => b.val + 256 * leVal bs

/-- The object representation of a type. -/
structure Rep (α : Type) where
  size : Nat
  enc : α → List Byte
  dec : List Byte → α

/-- `int`: four bytes, two's complement. -/
def intRep : Rep Int :=
  ⟨4, fun i => leBytes 4 (i % 2 ^ 32).toNat, fun b => if leVal b < 2 ^ 31 then leVal b else leVal b - 2 ^ 32⟩

/-- The elements of an array of `n` objects from its bytes. -/
def decodeArr (R : Rep α) : Nat → List Byte → List α
  | 0, _ => []
  | n + 1, bs => R.dec (bs.take R.size) :: decodeArr R n (bs.drop R.size)

/-- The bytes of an array. -/
def encodeArr (R : Rep α) (v : List α) : List Byte := v.flatMap R.enc

/-- `file.read(&v[0], n * sizeof(T))` into a new vector of `n` zeros; `v[0]` needs an element. -/
def readArr [Zero α] (R : Rep α) (n : Nat) (s : BStream) : Res (List α × BStream) := do
  let v := List.replicate n (0 : α)
  let _ ← rd v 0
  let r := readBytes (n * R.size) (encodeArr R v) s
  .ok (decodeArr R n r.1, r.2)

/-- The bytes `file.write(&v[0], n * sizeof(T))` writes: `v` must have an element, and at least `n`. -/
def writeArr (R : Rep α) (v : List α) (n : Nat) : Res (List Byte) := do
  let _ ← rd v 0
  if n ≤ v.length then .ok (encodeArr R (v.take n)) else .error .outOfBounds

/-- An open binary file, or the exception. -/
def openBin (file : Option (List Byte)) : Res BStream :=
  match file with
  | none => .error .threw
  | some t => .ok ⟨t, false⟩

/-- `WriteBinary(const std::vector<T>& vect, file_name)` (include/parser.hpp:71-87). -/
def writeBinaryVec (R : Rep α) (vect : List α) (canOpen : Bool) : Res (List Byte) := do
  openOut canOpen
  let b ← writeArr R vect vect.length
  .ok (leBytes 8 vect.length ++ b)

/-- `ReadBinaryVect(file_name)` (include/parser.hpp:95-114). -/
def readBinaryVec [Zero α] (R : Rep α) (file : Option (List Byte)) : Res (List α) := do
  let s ← openBin file
  let n := readBytes 8 (leBytes 8 0) s
  let r ← readArr R (leVal n.1) n.2
  .ok r.1

/-- `file.read(&x, sizeof(x))` of a `size_t` without initialiser. -/
def readSize (s : BStream) : Option Nat × BStream :=
  let r := readBytes 8 (leBytes 8 0) s
  (if r.2.failed then none else some (leVal r.1), r.2)

/-- `WriteBinary(const SparseMatrix<T>& mat, file_name)` (include/parser.hpp:124-151). -/
def writeBinaryMat (R : Rep α) (A : Csr α) (canOpen : Bool) : Res (List Byte) := do
  openOut canOpen
  let p ← writeArr intRep A.indptr (A.rows.toNat + 1)
  let ix ← writeArr intRep A.indices A.nnz.toNat
  let dt ← writeArr R A.data A.nnz.toNat
  .ok (leBytes 8 A.rows.toNat ++ leBytes 8 A.cols.toNat ++ leBytes 8 A.nnz.toNat ++ p ++ ix ++ dt)

/-- `ReadBinaryMat(file_name)` (include/parser.hpp:160-189). -/
def readBinaryMat [Zero α] (R : Rep α) (file : Option (List Byte)) : Res (Csr α) := do
  let s ← openBin file
  let r := readSize s
  let c := readSize r.2
  let z := readSize c.2
  let rows ← useVar r.1
  let cols ← useVar c.1
  let nnz ← useVar z.1
  let p ← readArr intRep (rows + 1) z.2
  let ix ← readArr intRep nnz p.2
  let dt ← readArr R nnz ix.2
  Csr.ofArrays p.1 ix.1 dt.1 rows cols

end Io
end Linalg
