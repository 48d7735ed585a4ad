import Verif.Model.SerializableJson
import Verif.Model.Commands
/-!
# Saving and loading serializable circuits, witnesses and test cases — `packages/zkenc-core/src/serializable.rs` 91-165

Saving is a program over the file system (`Cmd`), so that its runs include I/O errors and crashes. Loading is given without I/O errors:
the value or an error, as a function of the files. Serialization of these types never fails (maps have integer keys).
-/

namespace Zkenc

/-- `SerializableCircuit::save_json` (serializable.rs 91-95). -/
def saveCircuitJson (c : SCircuit) (p : Path) : Cmd := Cmd.writeFile p (utf8Enc (circuitToJson c)) "write" (.done (.ok ()))
/-- `SerializableCircuit::save_bincode` (serializable.rs 114-118). -/
def saveCircuitBincode (c : SCircuit) (p : Path) : Cmd := Cmd.writeFile p (toBincode c) "write" (.done (.ok ()))
/-- `SerializableWitness::save_json` (serializable.rs 139-143). -/
def saveWitnessJson (w : SWitness) (p : Path) : Cmd := Cmd.writeFile p (utf8Enc (witnessToJson w)) "write" (.done (.ok ()))
/-- `SerializableTestCase::save_json` (serializable.rs 154-158). -/
def saveTestCaseJson (t : STestCase) (p : Path) : Cmd := Cmd.writeFile p (utf8Enc (testCaseToJson t)) "write" (.done (.ok ()))

/-- `std::fs::read_to_string` (serializable.rs 99, 147, 162). -/
def loadText (fs : FS) (p : Path) : Option Str := ((fs p).bind utf8Dec).map (·.toList)

/-- `SerializableCircuit::load_json` (serializable.rs 98-101). -/
def loadCircuitJson (fs : FS) (p : Path) : Option SCircuit := (loadText fs p).bind circuitFromJson
/-- `SerializableCircuit::load_bincode` (serializable.rs 121-124). -/
def loadCircuitBincode (fs : FS) (p : Path) : Option SCircuit := (fs p).bind fromBincode
/-- `SerializableWitness::load_json` (serializable.rs 146-149). -/
def loadWitnessJson (fs : FS) (p : Path) : Option SWitness := (loadText fs p).bind witnessFromJson
/-- `SerializableTestCase::load_json` (serializable.rs 161-164). -/
def loadTestCaseJson (fs : FS) (p : Path) : Option STestCase := (loadText fs p).bind testCaseFromJson

end Zkenc
