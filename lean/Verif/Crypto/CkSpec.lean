import Verif.Basic

/-!
# What a Cryptoki caller expects of each function (PKCS #11 v3.0, section 5)

Written from the standard: the functions in the order of `CK_FUNCTION_LIST_3_0`, the number of their parameters, and the part of the
soft token that is to serve each (group and operation).
-/

namespace Flame.CkSpec

/-- Function, implementation, number of parameters. -/
def served : List (String × String × Nat) := [
  ("C_Initialize", "general_purpose::initialize", 1),
  ("C_Finalize", "general_purpose::finalize", 1),
  ("C_GetInfo", "general_purpose::getInfo", 1),
  ("C_GetFunctionList", "general_purpose::getFunctionList", 1),
  ("C_GetSlotList", "management::getSlotList", 3),
  ("C_GetSlotInfo", "management::getSlotInfo", 2),
  ("C_GetTokenInfo", "management::getTokenInfo", 2),
  ("C_GetMechanismList", "management::getMechanismList", 3),
  ("C_GetMechanismInfo", "management::getMechanismInfo", 3),
  ("C_InitToken", "management::initToken", 4),
  ("C_InitPIN", "management::initPin", 3),
  ("C_SetPIN", "management::setPin", 5),
  ("C_OpenSession", "session::open", 5),
  ("C_CloseSession", "session::close", 1),
  ("C_CloseAllSessions", "session::closeAll", 1),
  ("C_GetSessionInfo", "session::getInfo", 2),
  ("C_GetOperationState", "session::getOperationState", 3),
  ("C_SetOperationState", "session::setOperationState", 5),
  ("C_Login", "session::login", 4),
  ("C_Logout", "session::logout", 1),
  ("C_CreateObject", "object::create", 4),
  ("C_CopyObject", "object::copy", 5),
  ("C_DestroyObject", "object::destroy", 2),
  ("C_GetObjectSize", "object::getSize", 3),
  ("C_GetAttributeValue", "object::getAttributeValue", 4),
  ("C_SetAttributeValue", "object::setAttributeValue", 4),
  ("C_FindObjectsInit", "object::findInit", 3),
  ("C_FindObjects", "object::find", 4),
  ("C_FindObjectsFinal", "object::findFinal", 1),
  ("C_EncryptInit", "encrypt::init", 3),
  ("C_Encrypt", "encrypt::full", 5),
  ("C_EncryptUpdate", "encrypt::update", 5),
  ("C_EncryptFinal", "encrypt::final", 3),
  ("C_DecryptInit", "decrypt::init", 3),
  ("C_Decrypt", "decrypt::full", 5),
  ("C_DecryptUpdate", "decrypt::update", 5),
  ("C_DecryptFinal", "decrypt::final", 3),
  ("C_DigestInit", "digest::init", 2),
  ("C_Digest", "digest::full", 5),
  ("C_DigestUpdate", "digest::update", 3),
  ("C_DigestKey", "digest::key", 2),
  ("C_DigestFinal", "digest::final", 3),
  ("C_SignInit", "sign::init", 3),
  ("C_Sign", "sign::full", 5),
  ("C_SignUpdate", "sign::update", 3),
  ("C_SignFinal", "sign::final", 3),
  ("C_SignRecoverInit", "sign::recover::init", 3),
  ("C_SignRecover", "sign::recover::full", 5),
  ("C_VerifyInit", "verify::init", 3),
  ("C_Verify", "verify::full", 5),
  ("C_VerifyUpdate", "verify::update", 3),
  ("C_VerifyFinal", "verify::final", 3),
  ("C_VerifyRecoverInit", "verify::recover::init", 3),
  ("C_VerifyRecover", "verify::recover::full", 5),
  ("C_DigestEncryptUpdate", "dual_operations::digestEncryptUpdate", 5),
  ("C_DecryptDigestUpdate", "dual_operations::decryptDigestUpdate", 5),
  ("C_SignEncryptUpdate", "dual_operations::signEncryptUpdate", 5),
  ("C_DecryptVerifyUpdate", "dual_operations::decryptVerifyUpdate", 5),
  ("C_GenerateKey", "key::generateKey", 5),
  ("C_GenerateKeyPair", "key::generateKeyPair", 8),
  ("C_WrapKey", "key::wrapKey", 6),
  ("C_UnwrapKey", "key::unwrapKey", 8),
  ("C_DeriveKey", "key::deriveKey", 6),
  ("C_SeedRandom", "random_generation::seedRandom", 3),
  ("C_GenerateRandom", "random_generation::generateRandom", 3),
  ("C_GetFunctionStatus", "parallel_management::getFunctionStatus", 1),
  ("C_CancelFunction", "parallel_management::cancelFunction", 1),
  ("C_WaitForSlotEvent", "parallel_management::waitForSlotEvent", 3),
  ("C_GetInterfaceList", "general_purpose::getIterfaceList", 2),
  ("C_GetInterface", "general_purpose::getIterface", 4),
  ("C_LoginUser", "session::loginUser", 6),
  ("C_SessionCancel", "session::sessionCancel", 2),
  ("C_MessageEncryptInit", "message::encryptInit", 3),
  ("C_EncryptMessage", "message::encrypt", 9),
  ("C_EncryptMessageBegin", "message::encryptBegin", 5),
  ("C_EncryptMessageNext", "message::encryptNext", 8),
  ("C_MessageEncryptFinal", "message::encryptFinal", 1),
  ("C_MessageDecryptInit", "message::decryptInit", 3),
  ("C_DecryptMessage", "message::decrypt", 9),
  ("C_DecryptMessageBegin", "message::decryptBegin", 5),
  ("C_DecryptMessageNext", "message::decryptNext", 8),
  ("C_MessageDecryptFinal", "message::decryptFinal", 1),
  ("C_MessageSignInit", "message::signInit", 3),
  ("C_SignMessage", "message::sign", 7),
  ("C_SignMessageBegin", "message::signBegin", 3),
  ("C_SignMessageNext", "message::signNext", 7),
  ("C_MessageSignFinal", "message::signFinal", 1),
  ("C_MessageVerifyInit", "message::verifyInit", 3),
  ("C_VerifyMessage", "message::verify", 7),
  ("C_VerifyMessageBegin", "message::verifyBegin", 3),
  ("C_VerifyMessageNext", "message::verifyNext", 7),
  ("C_MessageVerifyFinal", "message::verifyFinal", 1)]

/-- Functions whose answer is a verdict about their arguments (a signature, a PIN, a user): OK means accepted. -/
def verdicts : List String := ["C_Verify", "C_VerifyFinal", "C_VerifyMessage", "C_VerifyMessageNext", "C_Login", "C_LoginUser", "C_SetPIN"]

/-- Functions with the position of a pointer through which OK promises a result. -/
def results : List (String × Nat) := [("C_GetSlotInfo", 1), ("C_GetTokenInfo", 1), ("C_GetMechanismInfo", 2), ("C_OpenSession", 4),
  ("C_GetSessionInfo", 1), ("C_CreateObject", 3), ("C_CopyObject", 4), ("C_GetObjectSize", 2), ("C_FindObjects", 3), ("C_Encrypt", 4),
  ("C_Decrypt", 4), ("C_Digest", 4), ("C_Sign", 4), ("C_GenerateKey", 4), ("C_GenerateKeyPair", 6), ("C_GenerateKeyPair", 7),
  ("C_WrapKey", 5), ("C_UnwrapKey", 7), ("C_DeriveKey", 5), ("C_GenerateRandom", 1), ("C_GetSlotList", 2), ("C_GetMechanismList", 2),
  ("C_WaitForSlotEvent", 1)]

end Flame.CkSpec
