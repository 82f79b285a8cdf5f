/-! Shared small instances. -/
namespace Verif

deriving instance DecidableEq for Except

end Verif
