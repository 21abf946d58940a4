import Mathlib.Data.List.Basic

/-!
Model of `cleanup` (`cratermaker/utils/general_utils.py` lines 472-504).  A disk is the list of its files; a file is given by the names on
its path from the root.  Directories are there if a file is below them: empty directories and symbolic links are not modelled.
-/

namespace Verif.Cleanup

/-- The path of a file or directory. Belongs to `general_utils.py` lines 500-503. -/
abbrev Path := List String

/-- The files on the disk. Belongs to `general_utils.py` lines 500-503. -/
abbrev Disk := List Path

/-- `_CONFIG_FILE_NAME`, `constants.py`. Belongs to `general_utils.py` lines 496-498. -/
def configName : String := "cratermaker.yaml"

/-- `_COMPONENT_NAMES`, `constants.py` lines 9-17. -/
def componentNames : List String := ["counting", "target", "scaling", "production", "morphology", "projectile", "surface"]

/-- What remains of a disk when a step of the clean-up ends, and whether it raised an exception. Belongs to `general_utils.py` lines 500-503. -/
inductive Outcome where
  | done (d : Disk)
  | raised (d : Disk)
  deriving DecidableEq, Repr

/-- `dir_path.exists()`: a file of that name, or a directory with a file in it. Belongs to `general_utils.py` lines 500-503. -/
def exists? (d : Disk) (p : Path) : Bool := d.any fun f => p.isPrefixOf f

/-- `shutil.rmtree(dir_path)`, `general_utils.py` lines 500-503: an exception for a file that is no directory. -/
def removeTree (d : Disk) (p : Path) : Outcome :=
  if exists? d p then
    if p ∈ d then .raised d else .done (d.filter fun f => !p.isPrefixOf f)
  else .done d

/-- The loop over the directories, `general_utils.py` lines 499-503. -/
def removeAll (d : Disk) : List Path → Outcome
  | [] => .done d
  | p :: ps =>
    match removeTree d p with
    | .done d' => removeAll d' ps
    | .raised d' => .raised d'

/-- The directories in the order of the two loops, `general_utils.py` lines 499-501. -/
def directories (simdir : Path) : List Path :=
  componentNames.flatMap fun c => [simdir ++ [c], simdir ++ [c ++ "_images"]]

/-- The configuration file is removed first, `general_utils.py` lines 496-498; `unlink` of a directory is an exception. -/
def cleanup (simdir : Path) (d : Disk) : Outcome :=
  let config := simdir ++ [configName]
  if exists? d config then
    if config ∈ d then removeAll (d.filter fun f => f ≠ config) (directories simdir) else .raised d
  else removeAll d (directories simdir)

end Verif.Cleanup
