import Verif.Model.TransmissionLoader
import Mathlib.Algebra.Field.Rat

/-!
transmission_parser_test.cpp, simple_transmission_loader_test.cpp, differential_transmission_loader_test.cpp,
four_bar_linkage_transmission_loader_test.cpp and transmission_interface_loader_test.cpp (transmission_interface/test)
against the model, with the robot descriptions of transmission_interface/test/urdf as TinyXML presents them (without the
comments) and exact arithmetic on rationals.
-/

namespace Verif.Tests.TransmissionLoader

open Verif.Transmission

/-- An element. -/
abbrev n := Elem.node

/-- An element with a text only. -/
def t (tag text : String) : Elem := Elem.node tag [] (some text) []

/-! ### The descriptions -/

/-- transmission_interface/test/urdf/differential_transmission_loader_full.urdf 1-29. -/
def differentialTransmissionLoaderFull : Elem :=
  n "robot" [("name", "robot")] none [
    n "transmission" [("name", "differential_trans")] none [
      t "type" "transmission_interface/DifferentialTransmission",
      n "joint" [("name", "bar_joint")] none [
        t "role" "joint2",
        t "offset" "-0.5",
        t "mechanicalReduction" "-2",
        t "hardwareInterface" "hardware_interface/PositionJointInterface"],
      n "joint" [("name", "foo_joint")] none [
        t "role" "joint1",
        t "offset" "0.5",
        t "mechanicalReduction" "2",
        t "hardwareInterface" "hardware_interface/PositionJointInterface"],
      n "actuator" [("name", "foo_actuator")] none [
        t "role" "actuator1",
        t "mechanicalReduction" "50"],
      n "actuator" [("name", "bar_actuator")] none [
        t "role" "actuator2",
        t "mechanicalReduction" "-50"]]]

/-- transmission_interface/test/urdf/differential_transmission_loader_invalid.urdf 1-268. -/
def differentialTransmissionLoaderInvalid : Elem :=
  n "robot" [("name", "robot")] none [
    n "transmission" [("name", "differential_trans")] none [
      t "type" "transmission_interface/DifferentialTransmission",
      n "joint" [("name", "bar_joint")] none [
        t "hardwareInterface" "hardware_interface/PositionJointInterface"],
      n "joint" [("name", "foo_joint")] none [
        t "role" "joint1",
        t "hardwareInterface" "hardware_interface/PositionJointInterface"],
      n "actuator" [("name", "foo_actuator")] none [
        t "role" "actuator1",
        t "mechanicalReduction" "50"],
      n "actuator" [("name", "bar_actuator")] none [
        t "role" "actuator2",
        t "mechanicalReduction" "-50"]],
    n "transmission" [("name", "differential_trans")] none [
      t "type" "transmission_interface/DifferentialTransmission",
      n "joint" [("name", "bar_joint")] none [
        t "role" "invalid_role",
        t "hardwareInterface" "hardware_interface/PositionJointInterface"],
      n "joint" [("name", "foo_joint")] none [
        t "role" "joint1",
        t "hardwareInterface" "hardware_interface/PositionJointInterface"],
      n "actuator" [("name", "foo_actuator")] none [
        t "role" "actuator1",
        t "mechanicalReduction" "50"],
      n "actuator" [("name", "bar_actuator")] none [
        t "role" "actuator2",
        t "mechanicalReduction" "-50"]],
    n "transmission" [("name", "differential_trans")] none [
      t "type" "transmission_interface/DifferentialTransmission",
      n "joint" [("name", "bar_joint")] none [
        n "role" [] none [],
        t "hardwareInterface" "hardware_interface/PositionJointInterface"],
      n "joint" [("name", "foo_joint")] none [
        t "role" "joint1",
        t "hardwareInterface" "hardware_interface/PositionJointInterface"],
      n "actuator" [("name", "foo_actuator")] none [
        t "role" "actuator1",
        t "mechanicalReduction" "50"],
      n "actuator" [("name", "bar_actuator")] none [
        t "role" "actuator2",
        t "mechanicalReduction" "-50"]],
    n "transmission" [("name", "differential_trans")] none [
      t "type" "transmission_interface/DifferentialTransmission",
      n "joint" [("name", "bar_joint")] none [
        t "role" "joint2",
        t "hardwareInterface" "hardware_interface/PositionJointInterface"],
      n "joint" [("name", "foo_joint")] none [
        t "role" "joint1",
        t "hardwareInterface" "hardware_interface/PositionJointInterface"],
      n "actuator" [("name", "foo_actuator")] none [
        t "mechanicalReduction" "50"],
      n "actuator" [("name", "bar_actuator")] none [
        t "role" "actuator2",
        t "mechanicalReduction" "-50"]],
    n "transmission" [("name", "differential_trans")] none [
      t "type" "transmission_interface/DifferentialTransmission",
      n "joint" [("name", "bar_joint")] none [
        t "role" "joint2",
        t "hardwareInterface" "hardware_interface/PositionJointInterface"],
      n "joint" [("name", "foo_joint")] none [
        t "role" "joint1",
        t "hardwareInterface" "hardware_interface/PositionJointInterface"],
      n "actuator" [("name", "foo_actuator")] none [
        t "role" "invalid_role",
        t "mechanicalReduction" "50"],
      n "actuator" [("name", "bar_actuator")] none [
        t "role" "actuator2",
        t "mechanicalReduction" "-50"]],
    n "transmission" [("name", "differential_trans")] none [
      t "type" "transmission_interface/DifferentialTransmission",
      n "joint" [("name", "bar_joint")] none [
        t "role" "joint2",
        t "hardwareInterface" "hardware_interface/PositionJointInterface"],
      n "joint" [("name", "foo_joint")] none [
        t "role" "joint1",
        t "hardwareInterface" "hardware_interface/PositionJointInterface"],
      n "actuator" [("name", "foo_actuator")] none [
        n "role" [] none [],
        t "mechanicalReduction" "50"],
      n "actuator" [("name", "bar_actuator")] none [
        t "role" "actuator2",
        t "mechanicalReduction" "-50"]],
    n "transmission" [("name", "differential_trans")] none [
      t "type" "transmission_interface/DifferentialTransmission",
      n "joint" [("name", "bar_joint")] none [
        t "role" "joint1",
        t "hardwareInterface" "hardware_interface/PositionJointInterface"],
      n "joint" [("name", "foo_joint")] none [
        t "role" "joint1",
        t "hardwareInterface" "hardware_interface/PositionJointInterface"],
      n "actuator" [("name", "foo_actuator")] none [
        t "role" "actuator1",
        t "mechanicalReduction" "50"],
      n "actuator" [("name", "bar_actuator")] none [
        t "role" "actuator2",
        t "mechanicalReduction" "-50"]],
    n "transmission" [("name", "differential_trans")] none [
      t "type" "transmission_interface/DifferentialTransmission",
      n "joint" [("name", "bar_joint")] none [
        t "role" "joint2",
        t "hardwareInterface" "hardware_interface/PositionJointInterface"],
      n "joint" [("name", "foo_joint")] none [
        t "role" "joint1",
        t "hardwareInterface" "hardware_interface/PositionJointInterface"],
      n "actuator" [("name", "foo_actuator")] none [
        t "role" "actuator1",
        t "mechanicalReduction" "50"],
      n "actuator" [("name", "bar_actuator")] none [
        t "role" "actuator1",
        t "mechanicalReduction" "-50"]],
    n "transmission" [("name", "differential_trans")] none [
      t "type" "transmission_interface/DifferentialTransmission",
      n "joint" [("name", "bar_joint")] none [
        t "role" "joint2",
        t "hardwareInterface" "hardware_interface/PositionJointInterface"],
      n "joint" [("name", "foo_joint")] none [
        t "role" "joint1",
        t "hardwareInterface" "hardware_interface/PositionJointInterface"],
      n "actuator" [("name", "foo_actuator")] none [
        t "role" "actuator1"],
      n "actuator" [("name", "bar_actuator")] none [
        t "role" "actuator2",
        t "mechanicalReduction" "-50"]],
    n "transmission" [("name", "differential_trans")] none [
      t "type" "transmission_interface/DifferentialTransmission",
      n "joint" [("name", "bar_joint")] none [
        t "role" "joint2",
        t "hardwareInterface" "hardware_interface/PositionJointInterface"],
      n "joint" [("name", "foo_joint")] none [
        t "role" "joint1",
        t "hardwareInterface" "hardware_interface/PositionJointInterface"],
      n "actuator" [("name", "foo_actuator")] none [
        t "role" "actuator1",
        t "mechanicalReduction" "fifty"],
      n "actuator" [("name", "bar_actuator")] none [
        t "role" "actuator2",
        t "mechanicalReduction" "-50"]],
    n "transmission" [("name", "differential_trans")] none [
      t "type" "transmission_interface/DifferentialTransmission",
      n "joint" [("name", "bar_joint")] none [
        t "role" "joint2",
        t "mechanicalReduction" "zero",
        t "hardwareInterface" "hardware_interface/PositionJointInterface"],
      n "joint" [("name", "foo_joint")] none [
        t "role" "joint1",
        t "hardwareInterface" "hardware_interface/PositionJointInterface"],
      n "actuator" [("name", "foo_actuator")] none [
        t "role" "actuator1",
        t "mechanicalReduction" "50"],
      n "actuator" [("name", "bar_actuator")] none [
        t "role" "actuator2",
        t "mechanicalReduction" "-50"]],
    n "transmission" [("name", "differential_trans")] none [
      t "type" "transmission_interface/DifferentialTransmission",
      n "joint" [("name", "bar_joint")] none [
        t "role" "joint2",
        t "mechanicalReduction" "0",
        t "hardwareInterface" "hardware_interface/PositionJointInterface"],
      n "joint" [("name", "foo_joint")] none [
        t "role" "joint1",
        t "hardwareInterface" "hardware_interface/PositionJointInterface"],
      n "actuator" [("name", "foo_actuator")] none [
        t "role" "actuator1",
        t "mechanicalReduction" "50"],
      n "actuator" [("name", "bar_actuator")] none [
        t "role" "actuator2",
        t "mechanicalReduction" "-50"]],
    n "transmission" [("name", "differential_trans")] none [
      t "type" "transmission_interface/DifferentialTransmission",
      n "joint" [("name", "bar_joint")] none [
        t "offset" "zero",
        t "role" "joint2",
        t "hardwareInterface" "hardware_interface/PositionJointInterface"],
      n "joint" [("name", "foo_joint")] none [
        t "role" "joint1",
        t "hardwareInterface" "hardware_interface/PositionJointInterface"],
      n "actuator" [("name", "foo_actuator")] none [
        t "role" "actuator1",
        t "mechanicalReduction" "50"],
      n "actuator" [("name", "bar_actuator")] none [
        t "role" "actuator2",
        t "mechanicalReduction" "-50"]]]

/-- transmission_interface/test/urdf/differential_transmission_loader_minimal.urdf 1-25. -/
def differentialTransmissionLoaderMinimal : Elem :=
  n "robot" [("name", "robot")] none [
    n "transmission" [("name", "differential_trans")] none [
      t "type" "transmission_interface/DifferentialTransmission",
      n "joint" [("name", "bar_joint")] none [
        t "role" "joint2",
        t "hardwareInterface" "hardware_interface/PositionJointInterface"],
      n "joint" [("name", "foo_joint")] none [
        t "role" "joint1",
        t "hardwareInterface" "hardware_interface/PositionJointInterface"],
      n "actuator" [("name", "foo_actuator")] none [
        t "role" "actuator1",
        t "mechanicalReduction" "50"],
      n "actuator" [("name", "bar_actuator")] none [
        t "role" "actuator2",
        t "mechanicalReduction" "-50"]]]

/-- transmission_interface/test/urdf/four_bar_linkage_transmission_loader_full.urdf 1-29. -/
def fourBarLinkageTransmissionLoaderFull : Elem :=
  n "robot" [("name", "robot")] none [
    n "transmission" [("name", "four_bar_linkage_trans")] none [
      t "type" "transmission_interface/FourBarLinkageTransmission",
      n "joint" [("name", "bar_joint")] none [
        t "role" "joint2",
        t "offset" "-0.5",
        t "mechanicalReduction" "-2",
        t "hardwareInterface" "hardware_interface/PositionJointInterface"],
      n "joint" [("name", "foo_joint")] none [
        t "role" "joint1",
        t "offset" "0.5",
        t "mechanicalReduction" "2",
        t "hardwareInterface" "hardware_interface/PositionJointInterface"],
      n "actuator" [("name", "foo_actuator")] none [
        t "role" "actuator1",
        t "mechanicalReduction" "50"],
      n "actuator" [("name", "bar_actuator")] none [
        t "role" "actuator2",
        t "mechanicalReduction" "-50"]]]

/-- transmission_interface/test/urdf/four_bar_linkage_transmission_loader_invalid.urdf 1-288. -/
def fourBarLinkageTransmissionLoaderInvalid : Elem :=
  n "robot" [("name", "robot")] none [
    n "transmission" [("name", "four_bar_linkage_trans")] none [
      t "type" "transmission_interface/FourBarLinkageTransmission",
      n "joint" [("name", "bar_joint")] none [
        t "hardwareInterface" "hardware_interface/PositionJointInterface"],
      n "joint" [("name", "foo_joint")] none [
        t "role" "joint1",
        t "hardwareInterface" "hardware_interface/PositionJointInterface"],
      n "actuator" [("name", "foo_actuator")] none [
        t "role" "actuator1",
        t "mechanicalReduction" "50"],
      n "actuator" [("name", "bar_actuator")] none [
        t "role" "actuator2",
        t "mechanicalReduction" "-50"]],
    n "transmission" [("name", "four_bar_linkage_trans")] none [
      t "type" "transmission_interface/FourBarLinkageTransmission",
      n "joint" [("name", "bar_joint")] none [
        t "role" "invalid_role",
        t "hardwareInterface" "hardware_interface/PositionJointInterface"],
      n "joint" [("name", "foo_joint")] none [
        t "role" "joint1",
        t "hardwareInterface" "hardware_interface/PositionJointInterface"],
      n "actuator" [("name", "foo_actuator")] none [
        t "role" "actuator1",
        t "mechanicalReduction" "50"],
      n "actuator" [("name", "bar_actuator")] none [
        t "role" "actuator2",
        t "mechanicalReduction" "-50"]],
    n "transmission" [("name", "four_bar_linkage_trans")] none [
      t "type" "transmission_interface/FourBarLinkageTransmission",
      n "joint" [("name", "bar_joint")] none [
        n "role" [] none [],
        t "hardwareInterface" "hardware_interface/PositionJointInterface"],
      n "joint" [("name", "foo_joint")] none [
        t "role" "joint1",
        t "hardwareInterface" "hardware_interface/PositionJointInterface"],
      n "actuator" [("name", "foo_actuator")] none [
        t "role" "actuator1",
        t "mechanicalReduction" "50"],
      n "actuator" [("name", "bar_actuator")] none [
        t "role" "actuator2",
        t "mechanicalReduction" "-50"]],
    n "transmission" [("name", "four_bar_linkage_trans")] none [
      t "type" "transmission_interface/FourBarLinkageTransmission",
      n "joint" [("name", "bar_joint")] none [
        t "role" "joint2",
        t "hardwareInterface" "hardware_interface/PositionJointInterface"],
      n "joint" [("name", "foo_joint")] none [
        t "role" "joint1",
        t "hardwareInterface" "hardware_interface/PositionJointInterface"],
      n "actuator" [("name", "foo_actuator")] none [
        t "mechanicalReduction" "50"],
      n "actuator" [("name", "bar_actuator")] none [
        t "role" "actuator2",
        t "mechanicalReduction" "-50"]],
    n "transmission" [("name", "four_bar_linkage_trans")] none [
      t "type" "transmission_interface/FourBarLinkageTransmission",
      n "joint" [("name", "bar_joint")] none [
        t "role" "joint2",
        t "hardwareInterface" "hardware_interface/PositionJointInterface"],
      n "joint" [("name", "foo_joint")] none [
        t "role" "joint1",
        t "hardwareInterface" "hardware_interface/PositionJointInterface"],
      n "actuator" [("name", "foo_actuator")] none [
        t "role" "invalid_role",
        t "mechanicalReduction" "50"],
      n "actuator" [("name", "bar_actuator")] none [
        t "role" "actuator2",
        t "mechanicalReduction" "-50"]],
    n "transmission" [("name", "four_bar_linkage_trans")] none [
      t "type" "transmission_interface/FourBarLinkageTransmission",
      n "joint" [("name", "bar_joint")] none [
        t "role" "joint2",
        t "hardwareInterface" "hardware_interface/PositionJointInterface"],
      n "joint" [("name", "foo_joint")] none [
        t "role" "joint1",
        t "hardwareInterface" "hardware_interface/PositionJointInterface"],
      n "actuator" [("name", "foo_actuator")] none [
        n "role" [] none [],
        t "mechanicalReduction" "50"],
      n "actuator" [("name", "bar_actuator")] none [
        t "role" "actuator2",
        t "mechanicalReduction" "-50"]],
    n "transmission" [("name", "four_bar_linkage_trans")] none [
      t "type" "transmission_interface/FourBarLinkageTransmission",
      n "joint" [("name", "bar_joint")] none [
        t "role" "joint1",
        t "hardwareInterface" "hardware_interface/PositionJointInterface"],
      n "joint" [("name", "foo_joint")] none [
        t "role" "joint1",
        t "hardwareInterface" "hardware_interface/PositionJointInterface"],
      n "actuator" [("name", "foo_actuator")] none [
        t "role" "actuator1",
        t "mechanicalReduction" "50"],
      n "actuator" [("name", "bar_actuator")] none [
        t "role" "actuator2",
        t "mechanicalReduction" "-50"]],
    n "transmission" [("name", "four_bar_linkage_trans")] none [
      t "type" "transmission_interface/FourBarLinkageTransmission",
      n "joint" [("name", "bar_joint")] none [
        t "role" "joint2",
        t "hardwareInterface" "hardware_interface/PositionJointInterface"],
      n "joint" [("name", "foo_joint")] none [
        t "role" "joint1",
        t "hardwareInterface" "hardware_interface/PositionJointInterface"],
      n "actuator" [("name", "foo_actuator")] none [
        t "role" "actuator1",
        t "mechanicalReduction" "50"],
      n "actuator" [("name", "bar_actuator")] none [
        t "role" "actuator1",
        t "mechanicalReduction" "-50"]],
    n "transmission" [("name", "four_bar_linkage_trans")] none [
      t "type" "transmission_interface/FourBarLinkageTransmission",
      n "joint" [("name", "bar_joint")] none [
        t "role" "joint2",
        t "hardwareInterface" "hardware_interface/PositionJointInterface"],
      n "joint" [("name", "foo_joint")] none [
        t "role" "joint1",
        t "hardwareInterface" "hardware_interface/PositionJointInterface"],
      n "actuator" [("name", "foo_actuator")] none [
        t "role" "actuator1"],
      n "actuator" [("name", "bar_actuator")] none [
        t "role" "actuator2",
        t "mechanicalReduction" "-50"]],
    n "transmission" [("name", "four_bar_linkage_trans")] none [
      t "type" "transmission_interface/FourBarLinkageTransmission",
      n "joint" [("name", "bar_joint")] none [
        t "role" "joint2",
        t "hardwareInterface" "hardware_interface/PositionJointInterface"],
      n "joint" [("name", "foo_joint")] none [
        t "role" "joint1",
        t "hardwareInterface" "hardware_interface/PositionJointInterface"],
      n "actuator" [("name", "foo_actuator")] none [
        t "role" "actuator1",
        t "mechanicalReduction" "fifty"],
      n "actuator" [("name", "bar_actuator")] none [
        t "role" "actuator2",
        t "mechanicalReduction" "-50"]],
    n "transmission" [("name", "four_bar_linkage_trans")] none [
      t "type" "transmission_interface/FourBarLinkageTransmission",
      n "joint" [("name", "bar_joint")] none [
        t "offset" "zero",
        t "role" "joint2",
        t "hardwareInterface" "hardware_interface/PositionJointInterface"],
      n "joint" [("name", "foo_joint")] none [
        t "role" "joint1",
        t "hardwareInterface" "hardware_interface/PositionJointInterface"],
      n "actuator" [("name", "foo_actuator")] none [
        t "role" "actuator1",
        t "mechanicalReduction" "50"],
      n "actuator" [("name", "bar_actuator")] none [
        t "role" "actuator2",
        t "mechanicalReduction" "-50"]],
    n "transmission" [("name", "four_bar_linkage_trans")] none [
      t "type" "transmission_interface/FourBarLinkageTransmission",
      n "joint" [("name", "bar_joint")] none [
        t "role" "joint2",
        t "mechanicalReduction" "zero",
        t "hardwareInterface" "hardware_interface/PositionJointInterface"],
      n "joint" [("name", "foo_joint")] none [
        t "role" "joint1",
        t "hardwareInterface" "hardware_interface/PositionJointInterface"],
      n "actuator" [("name", "foo_actuator")] none [
        t "role" "actuator1",
        t "mechanicalReduction" "50"],
      n "actuator" [("name", "bar_actuator")] none [
        t "role" "actuator2",
        t "mechanicalReduction" "-50"]],
    n "transmission" [("name", "four_bar_linkage_trans")] none [
      t "type" "transmission_interface/FourBarLinkageTransmission",
      n "joint" [("name", "bar_joint")] none [
        t "role" "joint2",
        t "mechanicalReduction" "0",
        t "hardwareInterface" "hardware_interface/PositionJointInterface"],
      n "joint" [("name", "foo_joint")] none [
        t "role" "joint1",
        t "hardwareInterface" "hardware_interface/PositionJointInterface"],
      n "actuator" [("name", "foo_actuator")] none [
        t "role" "actuator1",
        t "mechanicalReduction" "50"],
      n "actuator" [("name", "bar_actuator")] none [
        t "role" "actuator2",
        t "mechanicalReduction" "-50"]],
    n "transmission" [("name", "four_bar_linkage_trans")] none [
      t "type" "transmission_interface/FourBarLinkageTransmission",
      n "joint" [("name", "bar_joint")] none [
        t "role" "joint2",
        t "hardwareInterface" "hardware_interface/PositionJointInterface"],
      n "joint" [("name", "foo_joint")] none [
        t "role" "joint1",
        t "hardwareInterface" "hardware_interface/PositionJointInterface"],
      n "actuator" [("name", "foo_actuator")] none [
        t "role" "actuator1",
        t "mechanicalReduction" "0"],
      n "actuator" [("name", "bar_actuator")] none [
        t "role" "actuator2",
        t "mechanicalReduction" "-50"]]]

/-- transmission_interface/test/urdf/four_bar_linkage_transmission_loader_minimal.urdf 1-25. -/
def fourBarLinkageTransmissionLoaderMinimal : Elem :=
  n "robot" [("name", "robot")] none [
    n "transmission" [("name", "four_bar_linkage_trans")] none [
      t "type" "transmission_interface/FourBarLinkageTransmission",
      n "joint" [("name", "bar_joint")] none [
        t "role" "joint2",
        t "hardwareInterface" "hardware_interface/PositionJointInterface"],
      n "joint" [("name", "foo_joint")] none [
        t "role" "joint1",
        t "hardwareInterface" "hardware_interface/PositionJointInterface"],
      n "actuator" [("name", "foo_actuator")] none [
        t "role" "actuator1",
        t "mechanicalReduction" "50"],
      n "actuator" [("name", "bar_actuator")] none [
        t "role" "actuator2",
        t "mechanicalReduction" "-50"]]]

/-- transmission_interface/test/urdf/parser_test_invalid.urdf 1-120. -/
def parserTestInvalid : Elem :=
  n "robot" [("name", "robot")] none [
    n "transmission" [] none [
      t "type" "transmission_interface/SimpleTransmission",
      n "joint" [("name", "baz_joint")] none [
        t "offset" "0.5",
        t "hardwareInterface" "hardware_interface/PositionJointInterface"],
      n "actuator" [("name", "baz_actuator")] none [
        t "mechanicalReduction" "50"]],
    n "transmission" [] none [
      t "type" "transmission_interface/SimpleTransmission name=\"\"",
      n "joint" [("name", "baz_joint")] none [
        t "offset" "0.5",
        t "hardwareInterface" "hardware_interface/PositionJointInterface"],
      n "actuator" [("name", "baz_actuator")] none [
        t "mechanicalReduction" "50"]],
    n "transmission" [("name", "simple_trans")] none [
      n "joint" [("name", "baz_joint")] none [
        t "offset" "0.5",
        t "hardwareInterface" "hardware_interface/PositionJointInterface"],
      n "actuator" [("name", "baz_actuator")] none [
        t "mechanicalReduction" "50"]],
    n "transmission" [("name", "simple_trans")] none [
      n "type" [] none [],
      n "joint" [("name", "baz_joint")] none [
        t "offset" "0.5",
        t "hardwareInterface" "hardware_interface/PositionJointInterface"],
      n "actuator" [("name", "baz_actuator")] none [
        t "mechanicalReduction" "50"]],
    n "transmission" [("name", "simple_trans")] none [
      t "type" "transmission_interface/SimpleTransmission",
      n "joint" [("name", "baz_joint")] none [
        t "offset" "0.5"],
      n "actuator" [("name", "baz_actuator")] none [
        t "mechanicalReduction" "50"]],
    n "transmission" [("name", "simple_trans")] none [
      t "type" "transmission_interface/SimpleTransmission",
      n "joint" [("name", "baz_joint")] none [
        t "offset" "0.5",
        n "hardwareInterface" [] none []],
      n "actuator" [("name", "baz_actuator")] none [
        t "mechanicalReduction" "50"]],
    n "transmission" [("name", "simple_trans")] none [
      t "type" "transmission_interface/SimpleTransmission",
      n "joint" [("name", "baz_joint")] none [
        t "offset" "0.5",
        t "hardwareInterface" "hardware_interface/PositionJointInterface"],
      n "actuator" [] none [
        t "mechanicalReduction" "50"]],
    n "transmission" [("name", "simple_trans")] none [
      t "type" "transmission_interface/SimpleTransmission",
      n "joint" [("name", "baz_joint")] none [
        t "offset" "0.5",
        t "hardwareInterface" "hardware_interface/PositionJointInterface"],
      n "actuator" [("name", "")] none [
        t "mechanicalReduction" "50"]],
    n "transmission" [("name", "simple_trans")] none [
      t "type" "transmission_interface/SimpleTransmission",
      n "joint" [] none [
        t "offset" "0.5",
        t "hardwareInterface" "hardware_interface/PositionJointInterface"],
      n "actuator" [("name", "baz_actuator")] none [
        t "mechanicalReduction" "50"]],
    n "transmission" [("name", "simple_trans")] none [
      t "type" "transmission_interface/SimpleTransmission",
      n "joint" [("name", "")] none [
        t "offset" "0.5",
        t "hardwareInterface" "hardware_interface/PositionJointInterface"],
      n "actuator" [("name", "baz_actuator")] none [
        t "mechanicalReduction" "50"]]]

/-- transmission_interface/test/urdf/parser_test_valid.urdf 1-40. -/
def parserTestValid : Elem :=
  n "robot" [("name", "robot")] none [
    n "transmission" [("name", "differential_trans")] none [
      t "type" "transmission_interface/DifferentialTransmission",
      n "joint" [("name", "foo_joint")] none [
        t "offset" "0.5",
        t "mechanicalReduction" "2",
        t "hardwareInterface" "hardware_interface/PositionJointInterface",
        t "hardwareInterface" "hardware_interface/VelocityJointInterface",
        t "role" "role1"],
      n "joint" [("name", "bar_joint")] none [
        t "offset" "-0.5",
        t "mechanicalReduction" "-2",
        t "hardwareInterface" "hardware_interface/EffortJointInterface",
        t "role" "role2"],
      n "actuator" [("name", "foo_actuator")] none [
        t "mechanicalReduction" "50"],
      n "actuator" [("name", "bar_actuator")] none [
        t "mechanicalReduction" "-50"]],
    n "transmission" [("name", "simple_trans")] none [
      t "type" "transmission_interface/SimpleTransmission",
      n "joint" [("name", "baz_joint")] none [
        t "offset" "0.5",
        t "hardwareInterface" "hardware_interface/PositionJointInterface"],
      n "actuator" [("name", "baz_actuator")] none [
        t "mechanicalReduction" "50",
        t "hardwareInterface" "hardware_interface/PositionActuatorInterface"]]]

/-- transmission_interface/test/urdf/simple_transmission_loader_full.urdf 1-19. -/
def simpleTransmissionLoaderFull : Elem :=
  n "robot" [("name", "robot")] none [
    n "transmission" [("name", "simple_trans")] none [
      t "type" "transmission_interface/SimpleTransmission",
      n "joint" [("name", "foo_joint")] none [
        t "offset" "0.5",
        t "hardwareInterface" "hardware_interface/PositionJointInterface",
        t "hardwareInterface" "hardware_interface/VelocityJointInterface",
        t "hardwareInterface" "hardware_interface/EffortJointInterface",
        n "role" [] none []],
      n "actuator" [("name", "foo_actuator")] none [
        t "mechanicalReduction" "50"]]]

/-- transmission_interface/test/urdf/simple_transmission_loader_invalid.urdf 1-49. -/
def simpleTransmissionLoaderInvalid : Elem :=
  n "robot" [("name", "robot")] none [
    n "transmission" [("name", "simple_trans")] none [
      t "type" "transmission_interface/SimpleTransmission",
      n "joint" [("name", "foo_joint")] none [
        t "hardwareInterface" "hardware_interface/PositionJointInterface"],
      n "actuator" [("name", "foo_actuator")] none []],
    n "transmission" [("name", "simple_trans")] none [
      t "type" "transmission_interface/SimpleTransmission",
      t "transmissionInterface" "transmission_interface/ActuatorToJointStateInterface",
      n "joint" [("name", "foo_joint")] none [
        t "hardwareInterface" "hardware_interface/PositionJointInterface"],
      n "actuator" [("name", "foo_actuator")] none [
        t "mechanicalReduction" "fifty"]],
    n "transmission" [("name", "simple_trans")] none [
      t "type" "transmission_interface/SimpleTransmission",
      t "transmissionInterface" "transmission_interface/ActuatorToJointStateInterface",
      n "joint" [("name", "foo_joint")] none [
        t "offset" "zero",
        t "hardwareInterface" "hardware_interface/PositionJointInterface"],
      n "actuator" [("name", "foo_actuator")] none [
        t "mechanicalReduction" "50"]],
    n "transmission" [("name", "simple_trans")] none [
      t "type" "transmission_interface/SimpleTransmission",
      t "transmissionInterface" "transmission_interface/ActuatorToJointStateInterface",
      n "joint" [("name", "foo_joint")] none [
        t "hardwareInterface" "hardware_interface/PositionJointInterface"],
      n "actuator" [("name", "foo_actuator")] none [
        t "mechanicalReduction" "0"]]]

/-- transmission_interface/test/urdf/simple_transmission_loader_minimal.urdf 1-15. -/
def simpleTransmissionLoaderMinimal : Elem :=
  n "robot" [("name", "robot")] none [
    n "transmission" [("name", "simple_trans")] none [
      t "type" "transmission_interface/SimpleTransmission",
      n "joint" [("name", "foo_joint")] none [
        t "hardwareInterface" "hardware_interface/PositionJointInterface"],
      n "actuator" [("name", "foo_actuator")] none [
        t "mechanicalReduction" "50"]]]

/-- transmission_interface/test/urdf/transmission_interface_loader_bidirectional_valid.urdf 1-44. -/
def transmissionInterfaceLoaderBidirectionalValid : Elem :=
  n "robot" [("name", "robot")] none [
    n "transmission" [("name", "simple_trans")] none [
      t "type" "transmission_interface/SimpleTransmission",
      n "joint" [("name", "foo_joint")] none [
        t "offset" "0.5",
        t "hardwareInterface" "hardware_interface/BiDirectionalPositionJointInterface",
        t "hardwareInterface" "hardware_interface/BiDirectionalVelocityJointInterface",
        t "hardwareInterface" "hardware_interface/BiDirectionalEffortJointInterface"],
      n "actuator" [("name", "foo_actuator")] none [
        t "mechanicalReduction" "50"]],
    n "transmission" [("name", "differential_trans")] none [
      t "type" "transmission_interface/DifferentialTransmission",
      n "joint" [("name", "bar_joint")] none [
        t "role" "joint1",
        t "offset" "0.5",
        t "hardwareInterface" "hardware_interface/BiDirectionalPositionJointInterface",
        t "hardwareInterface" "hardware_interface/BiDirectionalVelocityJointInterface",
        t "hardwareInterface" "hardware_interface/BiDirectionalEffortJointInterface"],
      n "joint" [("name", "baz_joint")] none [
        t "role" "joint2",
        t "offset" "0.5",
        t "hardwareInterface" "hardware_interface/BiDirectionalPositionJointInterface",
        t "hardwareInterface" "hardware_interface/BiDirectionalVelocityJointInterface",
        t "hardwareInterface" "hardware_interface/BiDirectionalEffortJointInterface"],
      n "actuator" [("name", "bar_actuator")] none [
        t "role" "actuator1",
        t "mechanicalReduction" "50"],
      n "actuator" [("name", "baz_actuator")] none [
        t "role" "actuator2",
        t "mechanicalReduction" "50"]]]

/-- transmission_interface/test/urdf/transmission_interface_loader_duplicate.urdf 1-32. -/
def transmissionInterfaceLoaderDuplicate : Elem :=
  n "robot" [("name", "robot")] none [
    n "transmission" [("name", "simple_trans")] none [
      t "type" "transmission_interface/SimpleTransmission",
      n "joint" [("name", "foo_joint")] none [
        t "offset" "0.5",
        t "hardwareInterface" "hardware_interface/PositionJointInterface",
        t "hardwareInterface" "hardware_interface/VelocityJointInterface",
        t "hardwareInterface" "hardware_interface/EffortJointInterface"],
      n "actuator" [("name", "foo_actuator")] none [
        t "mechanicalReduction" "50"]],
    n "transmission" [("name", "simple_trans")] none [
      t "type" "transmission_interface/SimpleTransmission",
      n "joint" [("name", "foo_joint")] none [
        t "offset" "0.5",
        t "hardwareInterface" "hardware_interface/PositionJointInterface",
        t "hardwareInterface" "hardware_interface/VelocityJointInterface",
        t "hardwareInterface" "hardware_interface/EffortJointInterface"],
      n "actuator" [("name", "foo_actuator")] none [
        t "mechanicalReduction" "50"]]]

/-- transmission_interface/test/urdf/transmission_interface_loader_hw_iface_permutation.urdf 1-27. -/
def transmissionInterfaceLoaderHwIfacePermutation : Elem :=
  n "robot" [("name", "robot")] none [
    n "transmission" [("name", "differential_trans")] none [
      t "type" "transmission_interface/DifferentialTransmission",
      n "joint" [("name", "baz_joint")] none [
        t "role" "joint2",
        t "hardwareInterface" "hardware_interface/PositionJointInterface",
        t "hardwareInterface" "hardware_interface/VelocityJointInterface"],
      n "joint" [("name", "bar_joint")] none [
        t "role" "joint1",
        t "hardwareInterface" "hardware_interface/VelocityJointInterface",
        t "hardwareInterface" "hardware_interface/PositionJointInterface"],
      n "actuator" [("name", "bar_actuator")] none [
        t "role" "actuator1",
        t "mechanicalReduction" "50"],
      n "actuator" [("name", "baz_actuator")] none [
        t "role" "actuator2",
        t "mechanicalReduction" "-50"]]]

/-- transmission_interface/test/urdf/transmission_interface_loader_unsupported.urdf 1-48. -/
def transmissionInterfaceLoaderUnsupported : Elem :=
  n "robot" [("name", "robot")] none [
    n "transmission" [("name", "differential_trans")] none [
      t "type" "transmission_interface/DifferentialTransmission",
      n "joint" [("name", "bar_joint")] none [
        t "role" "joint2",
        t "hardwareInterface" "hardware_interface/PositionJointInterface",
        t "hardwareInterface" "hardware_interface/VelocityJointInterface"],
      n "joint" [("name", "foo_joint")] none [
        t "role" "joint1",
        t "hardwareInterface" "hardware_interface/PositionJointInterface"],
      n "actuator" [("name", "foo_actuator")] none [
        t "role" "actuator1",
        t "mechanicalReduction" "50"],
      n "actuator" [("name", "bar_actuator")] none [
        t "role" "actuator2",
        t "mechanicalReduction" "-50"]],
    n "transmission" [("name", "differential_trans")] none [
      t "type" "transmission_interface/DifferentialTransmission",
      n "joint" [("name", "bar_joint")] none [
        t "role" "joint2",
        t "hardwareInterface" "hardware_interface/PositionJointInterface",
        t "hardwareInterface" "hardware_interface/VelocityJointInterface"],
      n "joint" [("name", "foo_joint")] none [
        t "role" "joint1",
        t "hardwareInterface" "hardware_interface/PositionJointInterface",
        t "hardwareInterface" "hardware_interface/EffortJointInterface"],
      n "actuator" [("name", "foo_actuator")] none [
        t "role" "actuator1",
        t "mechanicalReduction" "50"],
      n "actuator" [("name", "bar_actuator")] none [
        t "role" "actuator2",
        t "mechanicalReduction" "-50"]]]

/-- transmission_interface/test/urdf/transmission_interface_loader_valid.urdf 1-44. -/
def transmissionInterfaceLoaderValid : Elem :=
  n "robot" [("name", "robot")] none [
    n "transmission" [("name", "simple_trans")] none [
      t "type" "transmission_interface/SimpleTransmission",
      n "joint" [("name", "foo_joint")] none [
        t "offset" "0.5",
        t "hardwareInterface" "hardware_interface/PositionJointInterface",
        t "hardwareInterface" "hardware_interface/VelocityJointInterface",
        t "hardwareInterface" "hardware_interface/EffortJointInterface"],
      n "actuator" [("name", "foo_actuator")] none [
        t "mechanicalReduction" "50"]],
    n "transmission" [("name", "differential_trans")] none [
      t "type" "transmission_interface/DifferentialTransmission",
      n "joint" [("name", "bar_joint")] none [
        t "role" "joint1",
        t "offset" "0.5",
        t "hardwareInterface" "hardware_interface/PositionJointInterface",
        t "hardwareInterface" "hardware_interface/VelocityJointInterface",
        t "hardwareInterface" "hardware_interface/EffortJointInterface"],
      n "joint" [("name", "baz_joint")] none [
        t "role" "joint2",
        t "offset" "0.5",
        t "hardwareInterface" "hardware_interface/PositionJointInterface",
        t "hardwareInterface" "hardware_interface/VelocityJointInterface",
        t "hardwareInterface" "hardware_interface/EffortJointInterface"],
      n "actuator" [("name", "bar_actuator")] none [
        t "role" "actuator1",
        t "mechanicalReduction" "50"],
      n "actuator" [("name", "baz_actuator")] none [
        t "role" "actuator2",
        t "mechanicalReduction" "50"]]]

/-! ### The parser -/

/-- The transmissions found. -/
def infos (e : Elem) : List TransInfo :=
  match parse ⟨false, false, some e⟩ with
  | .ok l => l
  | _ => []

/-- The result of `parse` is `true`. -/
def succeeds (d : Doc) : Bool :=
  match parse d with
  | .ok _ => true
  | _ => false

/-- transmission_parser_test.cpp 39-47 `InvalidFile`: a text that is not XML (TinyXML finds an error and has no element). -/
example : succeeds ⟨true, true, none⟩ = false := by decide +kernel

/-- transmission_parser_test.cpp 49-57 `EmptyFile`, 59-68 `InvalidTransmissions`. -/
example : succeeds ⟨false, false, some (n "robot" [("name", "robot")] none [])⟩ = true ∧
    (infos (n "robot" [("name", "robot")] none [])).length = 0 ∧
    succeeds ⟨false, false, some parserTestInvalid⟩ = true ∧ (infos parserTestInvalid).length = 0 := by decide +kernel

/-- transmission_parser_test.cpp 71-134 `SuccessfulParse`. -/
example :
    (infos parserTestValid).map (fun i => (i.name, i.type)) =
      [("differential_trans", "transmission_interface/DifferentialTransmission"),
        ("simple_trans", "transmission_interface/SimpleTransmission")] ∧
    (infos parserTestValid).map (fun i => i.actuators.map fun a => (a.name, a.hwIfaces)) =
      [[("foo_actuator", []), ("bar_actuator", [])],
        [("baz_actuator", ["hardware_interface/PositionActuatorInterface"])]] ∧
    (infos parserTestValid).map (fun i => i.joints.map fun j => (j.name, j.role, j.hwIfaces)) =
      [[("foo_joint", "role1", ["hardware_interface/PositionJointInterface", "hardware_interface/VelocityJointInterface"]),
        ("bar_joint", "role2", ["hardware_interface/EffortJointInterface"])],
        [("baz_joint", "", ["hardware_interface/PositionJointInterface"])]] := by decide +kernel

/-! ### The loaders of transmissions -/

/-- `std::stod` for the texts of these descriptions. -/
def stod (s : String) : Option ℚ :=
  [("2", 2), ("50", 50), ("-50", -50), ("0", 0), ("-2", -2), ("-0.5", -1/2), ("0.5", 1/2)].lookup s

/-- The numbers of a transmission. -/
inductive Numbers
  | simple (reduction offset : ℚ)
  | two (differential : Bool) (ar jr off : ℚ × ℚ)
  deriving DecidableEq

/-- The numbers of a transmission. -/
def numbers : Trans ℚ → Numbers
  | .simple t => .simple t.reduction t.offset
  | .differential t => .two true t.ar t.jr t.off
  | .fourBar t => .two false t.ar t.jr t.off

/-- What the loader of transmissions makes of a description: `none` for an exception or undefined behaviour, `some none` for
a null pointer. -/
def loaded (e : Elem) : List (Option (Option Numbers)) :=
  (infos e).map fun i => ((loadTransmission stod i).toOption).map fun r => r.map numbers

/-- simple_transmission_loader_test.cpp 40-104 `FullSpec`, `MinimalSpec`, `InvalidSpec`. -/
example : loaded simpleTransmissionLoaderFull = [some (some (.simple 50 (1/2)))] ∧
    loaded simpleTransmissionLoaderMinimal = [some (some (.simple 50 0))] ∧
    loaded simpleTransmissionLoaderInvalid = List.replicate 4 (some none) := by decide +kernel

/-- differential_transmission_loader_test.cpp 40-122. -/
example : loaded differentialTransmissionLoaderFull = [some (some (.two true (50, -50) (2, -2) (1/2, -1/2)))] ∧
    loaded differentialTransmissionLoaderMinimal = [some (some (.two true (50, -50) (1, 1) (0, 0)))] ∧
    loaded differentialTransmissionLoaderInvalid = List.replicate 13 (some none) := by decide +kernel

/-- four_bar_linkage_transmission_loader_test.cpp 40-124. -/
example : loaded fourBarLinkageTransmissionLoaderFull = [some (some (.two false (50, -50) (2, -2) (1/2, -1/2)))] ∧
    loaded fourBarLinkageTransmissionLoaderMinimal = [some (some (.two false (50, -50) (1, 1) (0, 0)))] ∧
    loaded fourBarLinkageTransmissionLoaderInvalid = List.replicate 14 (some none) := by decide +kernel

/-! ### The loader of transmission interfaces -/

/-- transmission_interface_loader_test.cpp 72: `act_names`, in the order of a map, with the index of the actuator. -/
def acts : List (String × Nat) := [("bar_actuator", 1), ("baz_actuator", 2), ("foo_actuator", 0)]

/-- transmission_interface_loader_test.cpp 43-87: the robot. Actuator `i` has its position in cell `10 * i`, then velocity,
effort, and the three commands. The joints of the loader begin at cell 100. -/
def robot : Loader ℚ where
  actuators := {
    state := some (acts.map fun a => (a.1, ⟨10 * a.2, 10 * a.2 + 1, 10 * a.2 + 2, none, none⟩))
    command := fun
      | .position => some (acts.map fun a => (a.1, 10 * a.2 + 3))
      | .velocity => some (acts.map fun a => (a.1, 10 * a.2 + 4))
      | .effort => some (acts.map fun a => (a.1, 10 * a.2 + 5)) }
  ownState := none
  ownCommand := fun _ => none
  next := 100

/-- transmission_interface_loader_test.cpp 141: a robot without interfaces. -/
def emptyRobot : Loader ℚ := { robot with actuators := ⟨none, fun _ => none⟩ }

/-- What `load` returns; `none` if it does not. -/
def loads (L : Loader ℚ) (i : TransInfo) : Option Bool := (L.load stod i).toOption.map (·.2)

/-- The transmission of simple_transmission_loader_full.urdf with other hardware interfaces of the joint. -/
def withIfaces (f : List String → List String) : List TransInfo :=
  (infos simpleTransmissionLoaderFull).map fun i =>
    { i with joints := i.joints.map fun j => { j with hwIfaces := f j.hwIfaces } }

/-- transmission_interface_loader_test.cpp 95-105 `UnsupportedTransmissionType`, 107-132 `UnsupportedHwInterfaceType`, 134-145
`UnavailableInterface`, 148-167 `UnsupportedFeature`, 169-178 `HwIfacePermutation`. -/
example : (infos simpleTransmissionLoaderFull).map (fun i => loads robot { i with type := "unsupported/transmission_type" }) =
      [some false] ∧
    (withIfaces fun _ => ["unsupported/hw_interface_type"]).map (loads robot) = [some false] ∧
    (withIfaces fun l => l ++ ["unsupported/hw_interface_type"]).map (loads robot) = [some true] ∧
    (infos simpleTransmissionLoaderFull).map (loads emptyRobot) = [some false] ∧
    (infos transmissionInterfaceLoaderUnsupported).map (loads robot) = [some false, some false] ∧
    (infos transmissionInterfaceLoaderHwIfacePermutation).map (loads robot) = [some true] := by decide +kernel

/-- The loader after `load` of a description, if it returned true. -/
def after (e : Elem) : Option (Loader ℚ) :=
  match robot.loadDoc stod ⟨false, false, some e⟩ with
  | .ok (L, true) => some L
  | _ => none

/-- transmission_interface_loader_test.cpp 180-198 `AccessorValidation`, 200-213 `DuplicateTransmissions`. -/
example : (after transmissionInterfaceLoaderValid).map (fun L => (L.raw.length, L.transmissions.length)) = some (3, 6) ∧
    (after transmissionInterfaceLoaderDuplicate).isSome = true := by decide +kernel

/-- `propagate` of an interface. -/
def prop (L : Loader ℚ) (k : Kind) (m : Mem ℚ) : Option (Mem ℚ) :=
  (propagateAll false k ((L.handles k).map (·.2)) m).toOption

/-- The cell of a joint's value: its state (0 to 2) or its command (3 to 5). -/
def joint (L : Loader ℚ) (name : String) (field : Nat) : Nat := (smapFind name L.raw).getD 0 + field

/-- The joints in the order of the test: the simple transmission, then the differential one. -/
def joints : List String := ["foo_joint", "bar_joint", "baz_joint"]

/-- Write values to cells. -/
def write (cells : List Nat) (xs : List ℚ) (m : Mem ℚ) : Mem ℚ := fun c =>
  ((cells.zip xs).lookup c).getD (m c)

/-- A field of the three joints. -/
def jointCells (L : Loader ℚ) (field : Nat) : List Nat := joints.map fun j => joint L j field

/-- A field of the three actuators. -/
def actCells (field : Nat) : List Nat := [field, 10 + field, 20 + field]

/-- Values written to cells, `propagate`, values read. -/
def run (e : Elem) (k : Kind) (inputs : Loader ℚ → List (List Nat × List ℚ)) (outputs : Loader ℚ → List (List Nat)) :
    Option (List (List ℚ)) := do
  let L ← after e
  let m ← prop L k ((inputs L).foldl (fun m (p : List Nat × List ℚ) => write p.1 p.2 m) fun _ => 7)
  return (outputs L).map fun cells => cells.map m

/-- transmission_interface_loader_test.cpp 215-359 `SuccessfulLoad`, and 361-529: the same for the other description, first
half of `SuccessfulLoadReversible`. -/
example : [transmissionInterfaceLoaderValid, transmissionInterfaceLoaderBidirectionalValid].all (fun e =>
    run e .actuatorToJointState (fun _ => [(actCells 0, [50, 50, 50]), (actCells 1, [-50, -50, -50]), (actCells 2, [1, 1, 1])])
        (fun L => [jointCells L 0, jointCells L 1, jointCells L 2]) =
      some [[3/2, 3/2, 1/2], [-1, -1, 0], [50, 100, 0]] &&
    run e .jointToActuatorPosition (fun L => [(jointCells L 3, [3/2, 3/2, 1/2])]) (fun _ => [actCells 3]) =
      some [[50, 50, 50]] &&
    run e .jointToActuatorVelocity (fun L => [(jointCells L 4, [1, 1, 0])]) (fun _ => [actCells 4]) = some [[50, 50, 50]] &&
    run e .jointToActuatorEffort (fun L => [(jointCells L 5, [50, 100, 0])]) (fun _ => [actCells 5]) = some [[1, 1, 1]]) =
    true := by decide +kernel

/-- transmission_interface_loader_test.cpp 531-589: second half of `SuccessfulLoadReversible`. -/
example : let e := transmissionInterfaceLoaderBidirectionalValid
    run e .jointToActuatorState (fun L =>
        [(jointCells L 0, [3/2, 3/2, 1/2]), (jointCells L 1, [-1, -1, -2]), (jointCells L 2, [5, 10, -5])])
        (fun _ => [actCells 0, actCells 1, actCells 2]) =
      some [[50, 50, 50], [-50, -150, 50], [1/10, 1/20, 3/20]] ∧
    run e .actuatorToJointPosition (fun _ => [(actCells 3, [3, 3, 3])]) (fun L => [jointCells L 3]) =
      some [[14/25, 14/25, 1/2]] ∧
    run e .actuatorToJointVelocity (fun _ => [(actCells 4, [1, 1, 0])]) (fun L => [jointCells L 4]) =
      some [[1/50, 1/100, 1/100]] ∧
    run e .actuatorToJointEffort (fun _ => [(actCells 5, [50, 1, 0])]) (fun L => [jointCells L 5]) =
      some [[2500, 50, 50]] := by decide +kernel

end Verif.Tests.TransmissionLoader
