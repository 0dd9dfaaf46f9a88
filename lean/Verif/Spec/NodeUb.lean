/-!
# Specification for C83 and C90: accesses of the node's own that must not go wrong
-/

namespace Mcl3dl
namespace Node

/-- The accesses of `MCL3dlNode` to its own buffers: the sensor origin of a beam point
(lidar_measurement_model_beam.cpp:147, mcl_3dl.cpp:486), the accumulation buffers and the map, and the
mutual recursion of the sensor callbacks. -/
def bufferErrors : List String :=
  ["origins[beam_header_id] out of range", "null pc_local_accum_", "null pc_all_accum_", "null pc_map_",
    "dangling pc_map_", "recursion does not end"]

/-- mcl_3dl.cpp:309: `cnt_measure_ % skip_measure`. -/
def divisionError : String := "integer division by zero"

end Node
end Mcl3dl
