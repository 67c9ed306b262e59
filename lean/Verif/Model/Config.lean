/-
Constants of src/Config.h.
-/
namespace ONA

/-- src/Config.h 88 -/
def UNIFICATION_DEPTH : Nat := 31
/-- src/Config.h 120 -/
def CONCEPTS_MAX : Nat := 16384
/-- src/Config.h 122 -/
def CONCEPTS_HASHTABLE_BUCKETS : Nat := CONCEPTS_MAX
/-- src/Config.h 124 -/
def CYCLING_BELIEF_EVENTS_MAX : Nat := 40
/-- src/Config.h 126 -/
def CYCLING_GOAL_EVENTS_MAX : Nat := 400
/-- src/Config.h 128 -/
def OPERATIONS_MAX : Nat := 10
/-- src/Config.h 130 -/
def OPERATIONS_BABBLE_ARGS_MAX : Nat := 10
/-- src/Config.h 132 -/
def STAMP_SIZE : Nat := 10
/-- src/Config.h 134 -/
def TABLE_SIZE : Nat := 20
/-- src/Config.h 136 -/
def COMPOUND_TERM_SIZE_MAX : Nat := 64
/-- src/Config.h 138 -/
def ATOMS_MAX : Nat := 65536
/-- src/Config.h 140 -/
def ATOMS_HASHTABLE_BUCKETS : Nat := ATOMS_MAX
/-- src/Config.h 144 -/
def ATOMIC_TERM_LEN_MAX : Nat := 32
/-- src/Config.h 146 -/
def NARSESE_LEN_MAX : Nat := 2148
/-- src/Config.h 148 -/
def CYCLING_GOAL_EVENTS_LAYERS : Nat := 30
/-- src/Config.h 150 -/
def VAR_INTRO_HASHTABLE_BUCKETS : Nat := COMPOUND_TERM_SIZE_MAX
/-- src/Config.h 152 -/
def OCCURRENCE_TIME_INDEX_SIZE : Nat := 512

end ONA
