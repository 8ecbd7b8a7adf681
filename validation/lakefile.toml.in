name = "eval"
defaultTargets = ["ev"]
[[lean_lib]]
name = "Shim"
[[lean_lib]]
name = "Model"
[[lean_exe]]
name = "ev"
root = "Main"
