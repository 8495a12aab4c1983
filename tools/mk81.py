import json
mods=["Verif.NN.Default","Verif.NN.PropsDefault"]
props=[["C81","Default-constructed objects","A default-constructed network refuses every input with an exception; update, randomize and load leave it as it is whatever the file holds, and backprop and computecost call through an indeterminate pointer. feeddata of a default-constructed trainer dereferences a null pointer (an SGDTrainer only if the data has a row; a BatchTrainer reads its indeterminate batch size first). After a network or trainer has been assigned to it, a default-constructed object behaves in every program as the object assigned.","all inputs, labels, files and layers in memory; all sequences of calls and of data after the assignment","all inputs and all continuations of a program",["src/neuralnet.cpp:NeuralNet()","src/layer/outputlayer.cpp:OutputLayer()","src/trainer/trainer.cpp:Trainer(),feeddata","src/trainer/sgdtrainer.cpp","src/trainer/batchtrainer.cpp","src/trainer/momentumtrainer.cpp"]]]
notes={"C81":["proved","Copying an indeterminate function pointer is taken to be harmless."]}
json.dump({"mods":mods,"props":props,"notes":notes,"design":"(C81) default constructors with indeterminate functions and null pointers as undefined behaviour when used; assignment by simulation over all later calls."},open('/tmp/gen/r81.json','w'))
