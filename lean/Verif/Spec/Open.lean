import Verif.Model.Open
/-
Independent notions about files on disk and MATLAB's header.
-/
namespace HS.Spec

/-- A place where an HDF5 superblock may be. -/
def SuperblockPlace (n : Nat) : Prop := n = 0 ∨ ∃ k, n = 512 * 2 ^ k

/-- The file has an HDF5 superblock at `n`, and `n` bytes of userblock before. -/
def HasUserblock (b : Bytes) (n : Nat) : Prop :=
  SuperblockPlace n ∧ (b.drop n).take 8 = h5sig ∧ ∀ m, SuperblockPlace m → m < n → (b.drop m).take 8 ≠ h5sig

/-- The user asked for the existing file to be thrown away: `truncate_existing`, or `truncate_invalid_matlab` with MATLAB compatibility for a file with a
userblock too small for MATLAB's header. -/
def AskedToTruncate (a : OpenArgs) (b : Bytes) : Prop :=
  a.writable = true ∧ (a.truncExisting = true ∨ a.matlab = true ∧ a.truncInvalid = true ∧ ∃ n, HasUserblock b n ∧ n < 128)

/-- The states of the disk a crash can leave, the one before opening first. -/
def crashStates (d : Option Bytes) (t : Trace) : List (Option Bytes) := d :: t.1.map some

/-- The file when opening has ended. -/
def finalState (d : Option Bytes) (t : Trace) : Option Bytes := (crashStates d t).getLastD d

/-- A MATLAB 7.3 header: 116 bytes of text padded with spaces, eight NULs, version 0x0200 and the endian indicator. -/
def MatHeader (b : Bytes) (text : Str) : Prop :=
  b.length = 128 ∧ p!"MATLAB 7.3 MAT-file" <+: text ∧ (∀ c ∈ text, 32 ≤ c ∧ c < 127) ∧ (∃ n, b.take 116 = text ++ List.replicate n 32) ∧
    b.drop 116 = List.replicate 8 0 ++ [0x00, 0x02, 0x49, 0x4D]

/-- The abbreviated names of the days of the week, Monday first, and of the months. -/
def dayNames : List Str := [p!"Mon", p!"Tue", p!"Wed", p!"Thu", p!"Fri", p!"Sat", p!"Sun"]
def monthNames : List Str := [p!"Jan", p!"Feb", p!"Mar", p!"Apr", p!"May", p!"Jun", p!"Jul", p!"Aug", p!"Sep", p!"Oct", p!"Nov", p!"Dec"]

/-- The text of the header with the version and the parts of the time. -/
def headerLine (version wd mo dd hh mm ss yyyy : Str) : Str :=
  p!"MATLAB 7.3 MAT-file, Platform: " ++ (p!"hdf5storage " ++ (version ++ (p!", Created on: " ++ (wd ++ (32 :: (mo ++ (32 :: (dd ++ (32 :: (hh ++ (58 :: (mm ++ (58 ::
    (ss ++ (32 :: (yyyy ++ p!" HDF5 schema 1.00 ."))))))))))))))))

/-- A moment as `datetime` objects give them in this millennium and the following ones. -/
structure ValidTime (t : DateTime) : Prop where
  year : 1000 ≤ t.year ∧ t.year ≤ 9999
  month : 1 ≤ t.month ∧ t.month ≤ 12
  day : 1 ≤ t.day ∧ t.day ≤ 31
  hour : t.hour < 24
  minute : t.minute < 60
  second : t.second < 60
  weekday : t.weekday < 7

/-- HDF5 creates valid files with the userblock asked for. -/
structure FreshOk (e : OpenEnv) : Prop where
  ub : HasUserblock e.fresh 512
  valid : e.valid (e.fresh.drop 512) = true

end HS.Spec
