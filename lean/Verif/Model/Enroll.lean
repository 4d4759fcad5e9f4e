import Verif.Model.Hook
/-!
# Automatic enrolment of keys

The service `prepare-sb-auto-enroll` of nix/modules/lanzaboote.nix, for one boot partition. It puts the files from which
systemd-boot enrols the keys at the next boot on the partition, and then has everything signed.
-/
namespace Verif.Tool
open Verif

/-- The files for the enrolment (lanzaboote.nix 583). -/
def enrollNames : List Str := [lit "PK.auth", lit "KEK.auth", lit "db.auth"]

/-- Where they are put (lanzaboote.nix 582-583). -/
def enrollFile (esp : Path) (n : Str) : Path := esp ++ [lit "loader", lit "keys", lit "auto", n]

/-- `mkdir -p` (lanzaboote.nix 582): the directories that are missing are made. -/
def enrollDirs (esp : Path) (fs : Fs) : List Change :=
  ([esp ++ [lit "loader"], esp ++ [lit "loader", lit "keys"], esp ++ [lit "loader", lit "keys", lit "auto"]].filter
    fun p => (fs.get p).isNone).map .mkdir

/-- `install` (lanzaboote.nix 583). `auth` are the contents that sbctl has exported. The service is started only if none
of the files exists (lanzaboote.nix 551-555), so that nothing needs to be removed first. -/
def enrollFiles (esp : Path) (auth : Str → Bytes) : List Change :=
  enrollNames.flatMap fun n => [.create (enrollFile esp n), .write (enrollFile esp n) (auth n)]

/-- What is changed before the installer is called (lanzaboote.nix 582-583). -/
def enrollChanges (esp : Path) (auth : Str → Bytes) (fs : Fs) : List Change := enrollDirs esp fs ++ enrollFiles esp auth

/-- All changes that the service makes (lanzaboote.nix 580-588), the installer being called as `cfg` says. -/
def enrollService (env : Env) (cfg : Config) (auth : Str → Bytes) (fs : Fs) : List Change :=
  enrollChanges cfg.esp auth fs ++ (run env cfg (start cfg (fs.replay (enrollChanges cfg.esp auth fs)))).2.log

end Verif.Tool
