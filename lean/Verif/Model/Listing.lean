import Verif.Model.Project

/-!
# Model of the path checks and directory listings of /repo/resistics/common.py, and of the container access of sites and projects

What a directory lists, and in which order, is the parameter `ls` (`Path.iterdir`).  What is neither a file nor a directory (a socket, a
link that leads nowhere) is not in the file system of the model.
-/

namespace Resistics

/-- /repo/resistics/common.py:26-45 `is_file`. -/
def isFileAt {W : Type} (fs : FS W) (p : Path) : Bool :=
  if (fs p).isNone then false
  else if fs.isFile p then true else false

/-- /repo/resistics/common.py:48-69 `assert_file`. -/
def assertFile {W : Type} (fs : FS W) (p : Path) : Except Err Unit :=
  if (fs p).isNone then .error .os
  else if fs.isFile p then .ok () else .error .notFile

/-- /repo/resistics/common.py:72-92 `is_dir`. -/
def isDirAt {W : Type} (fs : FS W) (p : Path) : Bool :=
  if (fs p).isNone then false
  else if fs.isDir p then true else false

/-- One turn of the loop at /repo/resistics/common.py:153-157. -/
def sortEntry {W : Type} (fs : FS W) (acc : List Path × List Path) (q : Path) : List Path × List Path :=
  if fs.isFile q then (acc.1, acc.2 ++ [q])
  else if fs.isDir q then (acc.1 ++ [q], acc.2) else acc

/-- /repo/resistics/common.py:119-158 `dir_contents`: directories and files. -/
def dirContents {W : Type} (ls : Path → List String) (fs : FS W) (p : Path) : Except Err (List Path × List Path) :=
  if (fs p).isNone then .error .pathNotFound
  else if fs.isDir p then .ok (((ls p).map fun n => p ++ [n]).foldl (sortEntry fs) ([], []))
  else .error .notDir

/-- /repo/resistics/common.py:161-178 `dir_files`. -/
def dirFiles {W : Type} (ls : Path → List String) (fs : FS W) (p : Path) : Except Err (List Path) := do
  let c ← dirContents ls fs p
  return c.2

/-- /repo/resistics/project.py:132-134 `Site.__iter__`. -/
def Site.iter {W : Type} (s : Site W) : List (Meas W) := s.measurements.map Prod.snd

/-- /repo/resistics/project.py:145-148 `Site.n_meas`. -/
def Site.nMeas {W : Type} (s : Site W) : ℕ := s.measurements.length

/-- /repo/resistics/project.py:242-244 `Project.__iter__`. -/
def Project.iter {W : Type} (p : Project W) : List (Site W) := p.sites.map Prod.snd

/-- /repo/resistics/project.py:250-253 `Project.n_sites`. -/
def Project.nSites {W : Type} (p : Project W) : ℕ := p.sites.length

end Resistics
