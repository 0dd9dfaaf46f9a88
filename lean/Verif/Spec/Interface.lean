import Verif.Model.Params

/-!
# Specification for C103: the names of the node

Subscribed topics and offered services, with the name at the current compatibility level and the name at the old one
(`~/` is the private namespace of the node).  The names the launch files, tests and the deprecation messages of the node use.
-/

namespace Mcl3dl
namespace Interface

/-- The full name. -/
def written (n : Compat.Name) : String := (if n.isPrivate then "~/" else "") ++ n.name

/-- What is always there. -/
def always : List (Endpoint × String × String) :=
  [(.cloud, "cloud", "~/cloud"),
   (.mapcloud, "mapcloud", "~/mapcloud"),
   (.mapcloudUpdate, "mapcloud_update", "~/mapcloud_update"),
   (.initialpose, "initialpose", "~/initialpose"),
   (.landmark, "mcl_measurement", "~/landmark"),
   (.resizeParticle, "resize_mcl_particle", "~/resize_particle"),
   (.globalLocalization, "global_localization", "~/global_localization"),
   (.expansionResetting, "expansion_resetting", "~/expansion_resetting"),
   (.loadPcd, "load_pcd", "load_pcd")]

/-- The table of a node, with odometry unless it is faked and the IMU unless it is faked. -/
def table (fakeOdom fakeImu : Bool) : List (Endpoint × String × String) :=
  (if fakeOdom then [] else [(.odom, "odom", "~/odom")]) ++
  (if fakeImu then [] else [(.imu, "imu/data", "~/imu")]) ++ always

end Interface
end Mcl3dl
